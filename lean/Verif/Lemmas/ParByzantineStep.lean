import Verif.Lemmas.ParByzantineInv
import Mathlib.Tactic.Abel

/-! # Parties using the parallel driver among parties that do not follow the protocol: the steps -/

namespace Manul

variable {sp : SP} {P : Proto sp}

namespace Byz

variable {z : Byz P}

/-! ### Changes of the sequential network -/

/-- A party puts back on the wire the messages of parties following the protocol it has kept. -/
theorem NetInv.uncache (ok : z.Ok) {G : History P} {e : sp.Id → Nat} {net : Net P} (h : z.NetInv G e net) {d : sp.Id}
    {s : Session P} {a : Accum P} (hn : net.node d = some (.running s a)) {t : Nat} (he : e d = t + 1) {cs : List (VerifiedMessage sp)}
    (hsub : cs.Sublist (Accum.filterMessages a.cached (z.pl.idAt (t + 1)))) (hcs : ∀ vm ∈ cs, z.H vm.sender)
    (hall : ∀ vm ∈ Accum.filterMessages a.cached (z.pl.idAt (t + 1)), z.H vm.sender → vm ∈ cs) :
    z.NetInv G e ⟨Function.update net.node d (some (.running s { a with cached := BMap.empty })),
      net.wire ++ cs.map (taskPacket d)⟩ := by
  obtain ⟨t', he', hs, ha⟩ := h.running d s a hn
  have : t' = t := by omega
  subst this
  have hnc : ∀ j r, ¬ IsCached ({ a with cached := BMap.empty } : Accum P) j r := by
    rintro j r ⟨en, vm, h1, -⟩
    simp at h1
  refine h.rewire ok hn he ?_ (fun _ _ => rfl) (fun j r _ hc => absurd hc (hnc j r)) ?_ ?_ ?_
  · refine ⟨ha.expecting, ha.artifacts, ?_⟩
    intro x
    obtain ⟨h1, h2, h3, h4, h5, h6, -, h8⟩ := ha.loc x
    refine ⟨h1, h2, h3, h4, h5, h6, ?_, ?_⟩
    · intro en r vm hen
      simp [Accum.loc] at hen
    · intro hx
      obtain ⟨g1, g2, g3, g4, g5, g6, -⟩ := h8 hx
      refine ⟨g1, g2, g3, g4, g5, g6, ?_⟩
      intro en r vm hen
      simp [Accum.loc] at hen
  · rintro j r hj ⟨en, vm, h1, h2⟩
    right
    obtain ⟨-, rfl, -, m, rfl, hm⟩ := ((ha.loc j).honest hj).cached en r vm h1 h2
    have hmem : verifiedOf j m ∈ Accum.filterMessages a.cached (z.pl.idAt (t' + 1)) := mem_filterMessages.2 ⟨j, en, h1, h2⟩
    exact ⟨_, List.mem_map_of_mem (hall _ hmem hj), rfl, rfl, hm.roundId⟩
  · intro p hp
    obtain ⟨vm, hvm, rfl⟩ := List.mem_map.1 hp
    have hH := hcs vm hvm
    obtain ⟨x, en, h1, h2⟩ := mem_filterMessages.1 (hsub.subset hvm)
    obtain ⟨m0, rfl, -⟩ := (ha.loc x).cached en _ vm h1 h2
    obtain ⟨g1, -, g2, m, g3, g4⟩ := ((ha.loc x).honest hH).cached en _ _ h1 h2
    refine ⟨hH, rfl, g1, g2, ?_, ⟨en, _, h1, h2⟩, hnc _ _⟩
    have : (taskPacket d (verifiedOf x m0)).message = m := by
      have e1 : m.destination = d := g4.dest
      simp only [verifiedOf, VerifiedMessage.mk.injEq, true_and] at g3
      obtain ⟨-, k1, k2, k3⟩ := g3
      simp only [taskPacket, verifiedOf, k1, k2, k3, ← e1]
    rw [this]
    exact g4
  · rw [List.pairwise_map]
    have hnd : ((Accum.filterMessages a.cached (z.pl.idAt (t' + 1))).map (fun m => m.sender)).Nodup := by
      apply filterMessages_nodup
      intro x m hx r vm hvm
      obtain ⟨m', rfl, -⟩ := (ha.loc x).cached m r vm hx hvm
      rfl
    exact (List.pairwise_map.1 hnd).sublist hsub

/-- A party changes what it holds of a party not following the protocol. -/
theorem NetInv.other (ok : z.Ok) {G : History P} {e : sp.Id → Nat} {net : Net P} (h : z.NetInv G e net) {d : sp.Id}
    {s : Session P} {a : Accum P} (hn : net.node d = some (.running s a)) {t : Nat} (he : e d = t + 1) {x : sp.Id} (hx : ¬ z.H x)
    {l : Loc P} (hl : z.LocInv G e d t x l) (hart : l.artifact = (a.loc x).artifact) :
    z.NetInv G e ⟨Function.update net.node d (some (.running s (a.setLoc x l))), net.wire⟩ := by
  obtain ⟨t', he', hs, ha⟩ := h.running d s a hn
  have : t' = t := by omega
  subst this
  have hloc : ∀ j, z.H j → (a.setLoc x l).loc j = a.loc j := by
    intro j hj
    have : j ≠ x := by rintro rfl; exact hx hj
    rw [Accum.loc_setLoc_other _ this]
  have harts : (a.setLoc x l).artifacts = a.artifacts := by
    refine BMap.ext fun k => ?_
    simp only [Accum.setLoc, BMap.get?_put]
    split
    · rename_i hk
      rw [hk, hart]
      rfl
    · rfl
  have := h.rewire ok hn he (a' := a.setLoc x l) (ps := []) ?_ ?_ ?_ ?_ (by simp) List.Pairwise.nil
  · simpa using this
  · refine ⟨ha.expecting, by rw [harts]; exact ha.artifacts, ?_⟩
    intro j
    by_cases hj : j = x
    · subst hj
      rw [Accum.loc_setLoc_same]
      exact hl
    · rw [Accum.loc_setLoc_other _ hj]
      exact ha.loc j
  · intro j hj
    have := congrArg Loc.payload (hloc j hj)
    simp only [Accum.loc] at this
    rw [contains_isSome, contains_isSome, this]
  · rintro j r hj ⟨en, vm, h1, h2⟩
    have := congrArg Loc.cached (hloc j hj)
    simp only [Accum.loc] at this
    exact ⟨en, vm, by rw [← this]; exact h1, h2⟩
  · rintro j r hj ⟨en, vm, h1, h2⟩
    have := congrArg Loc.cached (hloc j hj)
    simp only [Accum.loc] at this
    exact Or.inl ⟨en, vm, by rw [this]; exact h1, h2⟩

/-! ### Starting a round -/

/-- A round can be started if its messages can be made. -/
theorem startRound_ok (env : sp.EnvOk) {s : Session P} (hm : ∀ d ∈ s.destinations.elems, ∀ rng, ∃ x, s.round.makeDirect rng d = .ok x)
    (rng : sp.Rng) : ∃ a out, startRound s rng [] = .ok (a, out) := by
  obtain ⟨ws, -, -, h⟩ := sendAll_run env (s := s) (rng := rng) (i := 0) (a := s.makeAccum) (BSet.elems_nodup _)
    (by intro d _; simp [Session.makeAccum, Accum.new]) hm
  exact ⟨_, _, by unfold startRound; rw [h]; rfl⟩

/-- The messages of a round of a party following the protocol can be made. -/
theorem makes (ok : z.Ok) (dm : DirectsMade z.pl z.H) {G : History P} (hG : HonestAmong z.pl.g z.H G) {i : sp.Id} (hi : z.H i)
    {r : P.Rd} (hr : EnteringAmong z.pl.g z.H G i r) {sid : Bytes} {sk : sp.Signer} {tr : Transcript sp} {s : Session P}
    (hs : NewSession sid sk (.main r) tr s) : ∀ d ∈ s.destinations.elems, ∀ rng, ∃ x, s.round.makeDirect rng d = .ok x := by
  intro d hd rng
  have hc : s.destinations = z.pl.dests (G i).length i := by
    unfold Session.destinations
    rw [hs.comm]
    simp only [SRound.comm, ok.rob.comm G i r hG hi hr]
  rw [hc, BSet.mem_elems] at hd
  obtain ⟨x, hx⟩ := dm G i r hG hi hr d rng hd
  exact ⟨(x.1, some x.2), by rw [hs.round]; simp only [SRound.makeDirect, hx]⟩

/-- What is kept or being processed plays no role when a round is finalized. -/
theorem finalizeRound_frame (s : Session P) (rng : sp.Rng) (a : Accum P) (pr : BSet sp.Id)
    (ca : BMap sp.Id (BMap RoundId (VerifiedMessage sp))) :
    (∀ er, s.finalizeRound rng a = .error er → s.finalizeRound rng { a with processing := pr, cached := ca } = .error er) ∧
    (∀ r, s.finalizeRound rng a = .ok (.finished r) → s.finalizeRound rng { a with processing := pr, cached := ca } = .ok (.finished r)) ∧
    (∀ s' cs, s.finalizeRound rng a = .ok (.anotherRound s' cs) →
      s.finalizeRound rng { a with processing := pr, cached := BMap.empty } = .ok (.anotherRound s' [])) := by
  have hu : ∀ pr ca, s.updatedTranscript { a with processing := pr, cached := ca } = s.updatedTranscript a := fun _ _ => rfl
  unfold Session.finalizeRound
  simp only [hu]
  cases hut : s.updatedTranscript a with
  | error e => simp
  | ok t =>
    simp only
    cases hi : s.echoInfo with
    | some info =>
      simp only
      cases hr : s.round with
      | echo _ => simp
      | main r =>
        simp only [Session.startEcho]
        split
        · simp
        · split
          · simp
          · split
            · simp
            · refine ⟨by simp, by simp, ?_⟩
              intro s' cs hh
              simp only [Except.ok.injEq, RoundOutcome.anotherRound.injEq] at hh ⊢
              exact ⟨hh.1, rfl⟩
    | none =>
      simp only [Session.finalizeProper]
      split
      · simp
      · simp
      · split
        · simp
        · split
          · simp
          · refine ⟨by simp, by simp, ?_⟩
            intro s' cs hh
            simp only [Except.ok.injEq, RoundOutcome.anotherRound.injEq] at hh ⊢
            exact ⟨hh.1, rfl⟩

/-! ### The steps -/

theorem NodeOk.canFinalize {s : Session P} {st : ParSt P} {a : Accum P} (h : z.NodeOk s st a) :
    a.canFinalize = st.accum.canFinalize := by
  rw [h.acc]
  rfl

theorem NodeOk.hasError {s : Session P} {st : ParSt P} {a : Accum P} (h : z.NodeOk s st a) (x : sp.Id) :
    HasError s a x ↔ HasError s st.accum x := by
  rw [h.acc]
  exact Iff.rfl

theorem PSim.starts (ok : z.Ok) (env : sp.EnvOk) (dm : DirectsMade z.pl z.H) {c : PNet P} {n : Net P} (h : z.PSim c n)
    {G : History P} {e : sp.Id → Nat} (hi : z.NetInv G e n) {i : sp.Id} (hH : z.H i) (hn : c.node i = none) (rng rng' : sp.Rng) :
    ∃ G' e' n', z.NetInv G' e' n' ∧ z.PSim (c.put i (z.pl.g.startPar i rng rng') []) n' ∧ Moves e e' n' i := by
  have hnn : n.node i = none := by
    have := h.node i
    rw [hn] at this
    generalize n.node i = o at this
    cases this
    rfl
  have hip := ok.rob.members i hH
  obtain ⟨G', e', h1, hmv⟩ := hi.starts ok hH hnn rng rng'
  refine ⟨G', e', _, h1, ?_, hmv⟩
  clear hmv
  unfold Group.startPar Group.startNode
  cases hnew : Session.new rng z.pl.g.sid (z.pl.g.signer i) (z.pl.g.ep i) with
  | error er =>
    refine h.set (w := c.wire ++ []) (w' := n.wire ++ []) hip (by simp [hn]) .done (gx := 0) ?_ (by simp) (by simpa using h.fair)
    rw [hn]
    simp [held]
  | ok s =>
    simp only [start, enterRound]
    have hst : ∃ a out, startRound s rng' [] = .ok (a, out) := by
      apply startRound_ok env
      unfold Session.new at hnew
      rw [ok.keys i hip] at hnew
      cases hmk : (z.pl.g.ep i).makeRound (sp.fork rng 0) z.pl.g.sid i with
      | error er => simp [hmk] at hnew
      | ok r =>
        simp only [hmk] at hnew
        have hns := newForNextRound_ok hnew
        exact makes ok dm hi.history.honest hH (Or.inl ⟨(hi.idle i hnn).2, _, hmk⟩) hns
    obtain ⟨a, out, hst⟩ := hst
    obtain ⟨hok, hheld⟩ := NodeOk.begins (z := z) hst (cs := []) (by simp) i
    rw [hst]
    refine h.set (w := c.wire ++ []) (w' := n.wire ++ out.map (packetOf i)) hip (by simp [hn]) (.running hok) (gx := 0) ?_ (by simp)
      (by simpa using h.fair)
    rw [hn, hheld]
    simp only [held, ← Multiset.coe_add, List.append_nil, List.map_nil, hon_nil, add_zero]
    rw [add_right_comm]

/-- The packets a party has to send are its own. -/
theorem hon_packets {i : sp.Id} (hi : z.H i) (out : List (Message sp)) : z.hon (out.map (packetOf i)) = ↑(out.map (packetOf i)) := by
  apply hon_all
  intro p hp
  obtain ⟨m, -, rfl⟩ := List.mem_map.1 hp
  exact hi

/-- What is being processed of a party following the protocol has not been received. -/
theorem PSim.pending (ok : z.Ok) {c : PNet P} {n : Net P} (h : z.PSim c n) {G : History P} {e : sp.Id → Nat} (hi : z.NetInv G e n)
    {i : sp.Id} {s : Session P} {st : ParSt P} (hn : c.node i = some (.running s st)) {vm : VerifiedMessage sp} (hvm : vm ∈ st.tasks)
    (hx : z.H vm.sender) : taskPacket i vm ∈ n.wire := by
  obtain ⟨a, hna, -⟩ := h.running hn
  have hip := ok.rob.members i (hi.who i _ hna)
  obtain ⟨gh, hw, -⟩ := h.wire
  obtain ⟨R, h1, -⟩ := own_split hip c.node
  rw [h1, hn] at hw
  have : taskPacket i vm ∈ (n.wire : Multiset (Packet sp)) := by
    rw [hw]
    simp only [held, Multiset.mem_add]
    exact Or.inl (Or.inr (Or.inl (Or.inr (mem_hon.2 ⟨List.mem_map_of_mem hvm, hx⟩))))
  exact this

/-- The same, with the position. -/
theorem PSim.task (ok : z.Ok) {c : PNet P} {n : Net P} (h : z.PSim c n) {G : History P} {e : sp.Id → Nat} (hi : z.NetInv G e n)
    {i : sp.Id} {s : Session P} {st : ParSt P} (hn : c.node i = some (.running s st)) {t : Nat} (hs : z.SessInv G i t s)
    (he : e i = t + 1) {vm : VerifiedMessage sp} (hvm : vm ∈ st.tasks) (hx : z.H vm.sender) :
    vm = verifiedOf vm.sender (taskPacket i vm).message ∧ t < e vm.sender ∧ (z.pl.dAt t vm.sender).contains i = true ∧
      z.MsgAt G vm.sender i t (taskPacket i vm).message ∧ ¬ z.Recv n e i vm.sender t := by
  obtain ⟨a, hna, hok⟩ := h.running hn
  obtain ⟨u, h1, h2, h3, h4⟩ := hi.wire _ (h.pending ok hi hn hvm hx) hx
  obtain ⟨m, hm, hau, -⟩ := hok.tasks vm hvm
  have hid := h3.roundId
  have : (taskPacket i vm).message.direct = m.direct := by
    rw [hm]
    rfl
  rw [this, hau.1.1] at hid
  have hid' : z.pl.idAt t = z.pl.idAt u := by rw [← hid, ← hs.rid]; rfl
  have := hi.ids ok (i := i) (j := vm.sender) (t := t) (t' := u) (by omega) h1 hid'
  subst this
  refine ⟨?_, h1, h2, h3, h4⟩
  rw [hm]
  rfl

/-- The loop of a round ends. -/
theorem PSim.ticks (ok : z.Ok) (env : sp.EnvOk) (dm : DirectsMade z.pl z.H) {c : PNet P} {n : Net P} (h : z.PSim c n)
    {G : History P} {e : sp.Id → Nat} (hi : z.NetInv G e n) {i : sp.Id} {s : Session P} {st : ParSt P} {st' : ParState P} {rng : sp.Rng}
    (hn : c.node i = some (.running s st)) (hst : parStep (.running s st) (.tick rng) = some st') :
    ∃ G' e' n', z.NetInv G' e' n' ∧ z.PSim (c.put i st' (parOut st (.tick rng))) n' ∧ Moves e e' n' i := by
  classical
  obtain ⟨a, hna, hok⟩ := h.running hn
  have hH := hi.who i _ hna
  have hip := ok.rob.members i hH
  obtain ⟨t, he, hs, ha⟩ := hi.running i s a hna
  have hjoin := hok.joins.join
  have hout : parOut st (.tick rng) = st.outgoing.filterMap taskMessage := by simp only [parOut, hjoin]
  have hfair : ∀ p ∈ c.wire ++ (st.outgoing.filterMap taskMessage).map (packetOf i), ¬ z.H p.src → z.Fair p.src p.message := by
    intro p hp hps
    rcases List.mem_append.1 hp with hp | hp
    · exact h.fair p hp hps
    · obtain ⟨m, -, rfl⟩ := List.mem_map.1 hp
      exact absurd hH hps
  -- the case of a party that ends
  have hend : ∀ r, (∀ rep, r = .ok rep → z.DoneOk G e i rep) →
      ∃ G' e' n', z.NetInv G' e' n' ∧ z.PSim (c.put i (.done r) (parOut st (.tick rng))) n' ∧ Moves e e' n' i := by
    intro r hr
    rw [hout]
    obtain ⟨n', h1, h2⟩ := h.ends ok hi hn hr (w := c.wire ++ (st.outgoing.filterMap taskMessage).map (packetOf i)) (gp := 0) (gx := 0)
      (by rw [hon_append, hon_packets hH]; simp) (by simp) (by simp) hfair
    refine ⟨G, e, n', h1, h2, fun _ _ => rfl, Or.inl ⟨r, ?_⟩⟩
    have := h2.node i
    simp only [Function.update_self] at this
    generalize n'.node i = o at this
    cases this
    rfl
  have hacc : a = { ({ st.accum with artifacts := a.artifacts } : Accum P) with processing := a.processing, cached := st.accum.cached } := hok.acc
  simp only [parStep] at hst
  cases hc : st.accum.canFinalize with
  | notYet => simp [hc] at hst
  | never =>
    simp only [hc, parTerminate, hjoin, Option.some.injEq] at hst
    subst hst
    have hy : a.canFinalize = .never := by rw [hok.canFinalize]; exact hc
    apply hend
    intro rep hrep
    have : s.terminateDueToErrors a = .ok rep := by
      rw [hacc]
      exact hrep
    refine (hi.ends hna hy).done i rep ?_
    rw [this]
    simp [Net.put]
  | yes =>
    have hy : a.canFinalize = .yes := by rw [hok.canFinalize]; exact hc
    simp only [hc, parFinish, hjoin, Option.some.injEq] at hst
    obtain ⟨f1, f2, f3⟩ := finalizeRound_frame s (sp.fork rng 0) { st.accum with artifacts := a.artifacts } a.processing st.accum.cached
    rw [← hacc] at f1 f2
    cases hf : s.finalizeRound (sp.fork rng 0) { st.accum with artifacts := a.artifacts } with
    | error er =>
      simp only [hf] at hst
      subst hst
      exact hend _ (by simp)
    | ok o =>
      cases o with
      | finished r =>
        simp only [hf] at hst
        subst hst
        apply hend
        intro rep hrep
        simp only [Except.ok.injEq] at hrep
        subst hrep
        cases finalizeRound_ok (f2 r hf) with
        | intro tr hh =>
        obtain ⟨hu, hfin⟩ := hh
        cases hfin with
        | @result v hinfo hfz =>
          have htr := updates hs ha (ha.awaited hy) hu
          refine ⟨htr.provable, htr.unprovable, htr.missing, ?_, ?_⟩
          · intro v' hv'
            simp only [Report.new, SessionOutcome.result.injEq] at hv'
            subst hv'
            exact ⟨_, finalizes hi.history hs ha hy hfz⟩
          · intro _ _
            have hq : (z.pl.at' (t + 1)).2 = false := by rw [← hs.echoInfo, hinfo]; rfl
            rw [he, Plan.after hq, hs.len]
      | anotherRound s' cs =>
        simp only [hf] at hst
        subst hst
        have ha0 : ({ a with cached := BMap.empty } : Accum P) =
            { ({ st.accum with artifacts := a.artifacts } : Accum P) with processing := a.processing, cached := BMap.empty } := by
          rw [hok.acc]
        have hfin := f3 s' cs hf
        rw [← ha0] at hfin
        obtain ⟨tr, hu, hcase⟩ := finalizeRound_ok hf
        have hua : Updated s.transcript s.roundId s.me s.echo a tr := by
          have h1 : s.updatedTranscript a = .ok tr := by
            have h2 : s.updatedTranscript { st.accum with artifacts := a.artifacts } = .ok tr := update_iff.2 hu
            rw [hok.acc]
            exact h2
          exact update_iff.1 h1
        have htr := updates hs ha (ha.awaited hy) hua
        have hpay : a.payloads = st.accum.payloads := by rw [hok.acc]
        have hca : a.cached = st.accum.cached := by rw [hok.acc]
        have hmk : ∀ d ∈ s'.destinations.elems, ∀ rng, ∃ x, s'.round.makeDirect rng d = .ok x := by
          cases hcase with
          | toEcho _ _ _ hns =>
            intro d _ rng
            exact ⟨_, by rw [hns.round]; rfl⟩
          | toNext hinfo hfz _ hns _ =>
            refine makes ok dm hi.history.honest hH (Or.inr ⟨sp.fork (sp.fork rng 0) 0, finalizes hi.history hs ha hy ?_⟩) hns
            rw [hpay]
            exact hfz
        have hcs : ∃ q : VerifiedMessage sp → Bool, cs = (Accum.filterMessages st.accum.cached s'.roundId).filter q ∧
            ∀ vm, z.H vm.sender → q vm = true := by
          cases hcase with
          | toEcho _ _ _ hns => exact ⟨fun _ => true, by simp, fun _ _ => rfl⟩
          | toNext hinfo hfz _ hns hrid =>
            refine ⟨_, by rw [hrid], ?_⟩
            intro vm hx
            have hp := htr.provable _ hx
            have hu := htr.unprovable _ hx
            simp [Transcript.isBanned, contains_isSome, hp, hu]
        obtain ⟨a', out, hstart⟩ := startRound_ok env hmk (sp.fork rng 1)
        have hfr : finishRound s { a with cached := BMap.empty } rng = (.running s' a', out) := by
          unfold finishRound
          rw [hfin]
          simp only [enterRound, hstart]
        have hn1 := hi.uncache ok hna he (cs := (Accum.filterMessages a.cached (z.pl.idAt (t + 1))).filter (fun vm => decide (z.H vm.sender)))
          List.filter_sublist (fun vm hvm => by simpa using (List.mem_filter.1 hvm).2)
          (fun vm hvm hx => List.mem_filter.2 ⟨hvm, by simpa using hx⟩)
        obtain ⟨G', e', h1, hmv⟩ := hn1.ticks ok (i := i) (s := s) (a := { a with cached := BMap.empty }) (by simp) rng hy
        rw [hfr] at h1 hmv
        have hrid : s'.roundId = z.pl.idAt (t + 1) := by
          obtain ⟨t', g1, g2, -⟩ := h1.running i s' a' (by simp [Net.put])
          rcases hmv.2 with ⟨r, hr⟩ | ⟨s2, a2, -, g3⟩
          · simp [Net.put] at hr
          · have : t' = t + 1 := by omega
            rw [← this]
            exact g2.rid
        obtain ⟨q, rfl, hq⟩ := hcs
        obtain ⟨hkept, -⟩ := kept ha
        obtain ⟨hok', hheld⟩ := NodeOk.begins (z := z) hstart (cs := (Accum.filterMessages st.accum.cached s'.roundId).filter q) (by
          intro vm hvm
          have := (List.mem_filter.1 hvm).1
          rw [hrid, ← hca] at this
          obtain ⟨m, k1, k2, k3, -⟩ := hkept.good vm this
          exact ⟨m, k1, by rw [hrid]; exact k2, k3⟩) i
        refine ⟨G', e', _, h1, ?_, hmv⟩
        have hnode : Net.put ⟨Function.update n.node i (some (.running s { a with cached := BMap.empty })), n.wire ++
            ((Accum.filterMessages a.cached (z.pl.idAt (t + 1))).filter (fun vm => decide (z.H vm.sender))).map (taskPacket i)⟩
              i (.running s' a') out =
            ⟨Function.update n.node i (some (.running s' a')), n.wire ++
              ((Accum.filterMessages a.cached (z.pl.idAt (t + 1))).filter (fun vm => decide (z.H vm.sender))).map (taskPacket i) ++
              out.map (packetOf i)⟩ := by
          simp only [Net.put, Function.update_idem]
          rfl
        rw [hnode, hout]
        refine h.set (w := c.wire ++ (st.outgoing.filterMap taskMessage).map (packetOf i)) hip (by simp [hn]) (.running hok') (gx := 0) ?_
          (by simp) hfair
        have htasks : z.hon (st.tasks.map (taskPacket i)) = 0 := by
          rw [Multiset.eq_zero_iff_forall_notMem]
          intro p hp
          obtain ⟨hp, hx⟩ := mem_hon.1 hp
          obtain ⟨vm, hvm, rfl⟩ := List.mem_map.1 hp
          obtain ⟨-, g1, g2, -, g3⟩ := h.task ok hi hn hs he hvm hx
          have hsrc := (dest_symm ok (hi.entered _ _ g1) hx g2).2 hH
          exact g3 ⟨s, a, hna, Or.inr (Or.inl ⟨he.symm, by rw [ha.yes hy]; exact hsrc⟩)⟩
        have hnew : z.hon (((Accum.filterMessages st.accum.cached s'.roundId).filter q).map (taskPacket i)) =
            ↑(((Accum.filterMessages a.cached (z.pl.idAt (t + 1))).filter (fun vm => decide (z.H vm.sender))).map (taskPacket i)) := by
          unfold hon
          rw [List.filter_map, List.filter_filter, hrid, ← hca]
          congr 2
          apply List.filter_congr
          intro vm _
          by_cases hx : z.H vm.sender
          · simp [hx, hq vm hx, taskPacket]
          · simp [hx, taskPacket]
        rw [hn, hheld, hnew]
        simp only [held, htasks, hon_append, hon_packets hH, ← Multiset.coe_add, add_zero]
        abel

end Byz

end Manul
