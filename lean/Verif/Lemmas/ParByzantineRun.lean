import Verif.Lemmas.ParByzantineStep

/-! # Parties using the parallel driver among parties that do not follow the protocol: messages and tasks -/

namespace Manul

variable {sp : SP} {P : Proto sp}

namespace Byz

variable {z : Byz P}

/-- Two packets on the wire are different. -/
theorem NetInv.two {G : History P} {e : sp.Id → Nat} {n : Net P} (h : z.NetInv G e n) {p q : Packet sp}
    {R : Multiset (Packet sp)} (hw : (n.wire : Multiset (Packet sp)) = {p} + {q} + R) : z.Differ p q := by
  induction R using Quotient.inductionOn with
  | h r =>
    have hp : (p :: q :: r).Perm n.wire := by
      rw [← Multiset.coe_eq_coe, hw]
      rfl
    have := (hp.pairwise_iff (R := z.Differ) (fun h => h.symm)).2 h.differ
    rw [List.pairwise_cons] at this
    exact this.1 q (by simp)

/-- Nothing has changed. -/
theorem net_self {n : Net P} {i : sp.Id} {st : RunState P} (h : n.node i = some st) :
    (⟨Function.update n.node i (some st), n.wire⟩ : Net P) = n := by
  rw [← h, Function.update_eq_self]

/-- Changing the part of a party in both. -/
theorem NodeOk.acc_set {st : ParSt P} {a : Accum P} (h : a = { st.accum with artifacts := a.artifacts, processing := a.processing })
    (x : sp.Id) (l : Loc P) (pr : Bool) :
    a.setLoc x { l with artifact := (a.loc x).artifact, processing := pr } =
      { st.accum.setLoc x l with
        artifacts := (a.setLoc x { l with artifact := (a.loc x).artifact, processing := pr }).artifacts
        processing := (a.setLoc x { l with artifact := (a.loc x).artifact, processing := pr }).processing } := by
  generalize (a.loc x).artifact = A
  rw [h]
  rfl

theorem setLoc_artifacts {a : Accum P} {x : sp.Id} {l : Loc P} (h : l.artifact = (a.loc x).artifact) :
    (a.setLoc x l).artifacts = a.artifacts := by
  refine BMap.ext fun k => ?_
  simp only [Accum.setLoc, BMap.get?_put]
  split
  · rename_i hk
    rw [hk, h]
    rfl
  · rfl

/-- The parts of a party. -/
theorem NodeOk.loc {s : Session P} {st : ParSt P} {a : Accum P} (h : z.NodeOk s st a) (x : sp.Id) :
    a.loc x = { st.accum.loc x with artifact := (a.loc x).artifact, processing := (a.loc x).processing } := by
  conv_lhs => rw [h.acc]
  rfl

/-- A message is received. -/
theorem PSim.delivers (ok : z.Ok) {c : PNet P} {n : Net P} (h : z.PSim c n) {G : History P} {e : sp.Id → Nat} (hi : z.NetInv G e n)
    {p : Packet sp} {w w' : List (Packet sp)} (hw : c.wire = w ++ p :: w') {s : Session P} {st : ParSt P} {st' : ParState P}
    (hn : c.node p.dest = some (.running s st)) (hst : parStep (.running s st) (.op (.deliver p.src p.message)) = some st') :
    ∃ n', z.NetInv G e n' ∧ z.PSim (PNet.put ⟨c.node, w ++ w'⟩ p.dest st' []) n' := by
  classical
  obtain ⟨a, hna, hok⟩ := h.running hn
  have hH := hi.who _ _ hna
  have hip := ok.rob.members _ hH
  obtain ⟨t, he, hs, ha⟩ := hi.running _ s a hna
  have hput : PNet.put ⟨c.node, w ++ w'⟩ p.dest st' [] = ⟨Function.update c.node p.dest (some st'), w ++ w'⟩ := by simp [PNet.put]
  rw [hput]
  have hfair : ∀ q ∈ w ++ w', ¬ z.H q.src → z.Fair q.src q.message := by
    intro q hq
    apply h.fair q
    rw [hw]
    rcases List.mem_append.1 hq with hq | hq
    · exact List.mem_append.2 (Or.inl hq)
    · exact List.mem_append.2 (Or.inr (List.mem_cons_of_mem _ hq))
  have hhon : z.hon c.wire = z.hon (w ++ w') + z.hon [p] := by
    rw [hw, hon_append, hon_append, hon_cons]
    abel
  have hpw : p ∈ c.wire := by rw [hw]; simp
  simp only [parStep] at hst
  cases hc : st.accum.canFinalize with
  | yes => simp [hc] at hst
  | never => simp [hc] at hst
  | notYet =>
    simp only [hc, parOp] at hst
    by_cases hx : z.H p.src
    · -- a party following the protocol
      obtain ⟨gh, hwire, -⟩ := h.wire
      have hmem : p ∈ n.wire := by
        have : p ∈ (n.wire : Multiset (Packet sp)) := by
          rw [hwire]
          simp only [Multiset.mem_add]
          exact Or.inl (Or.inl (mem_hon.2 ⟨hpw, hx⟩))
        exact this
      obtain ⟨u, h1, h2, h3, h4⟩ := hi.wire p hmem hx
      obtain ⟨hwf, hne, hsrc, hau, hcase⟩ := arrives ok hi hna he hs ha hx h1 h2 h3 h4
      have hne' : ¬ HasError s st.accum p.src := by rw [← hok.hasError]; exact hne
      have hpe : p = taskPacket p.dest (verifiedOf p.src p.message) := by
        have := h3.dest
        obtain ⟨src, dest, ⟨md, m1, m2, m3⟩⟩ := p
        simp only at this
        subst this
        rfl
      rcases hcase with ⟨rfl, hpay, hid⟩ | ⟨rfl, hid, hsim, hnc⟩
      · -- of this round
        rw [hid] at hau
        have hpr : st.accum.processing.contains p.src = false := by
          by_contra hcc
          have hcc : BMap.contains st.accum.processing p.src = true := by simpa using hcc
          rcases hok.processing _ hx hcc with hp | ⟨vm, hvm, hvs⟩
          · rw [hok.acc] at hpay
            simp only at hpay
            rw [hp] at hpay
            simp at hpay
          · have hvx : z.H vm.sender := by rw [hvs]; exact hx
            obtain ⟨R, k1, -⟩ := own_split hip c.node
            rw [k1, hn, hhon, hon_one hx] at hwire
            simp only [held] at hwire
            obtain ⟨i, hlt, hget⟩ := List.getElem_of_mem hvm
            have hperm : (st.tasks.map (taskPacket p.dest)).Perm
                (taskPacket p.dest vm :: (st.tasks.eraseIdx i).map (taskPacket p.dest)) := by
              have := perm_eraseIdx (l := st.tasks) (i := i) (x := vm) (by rw [List.getElem?_eq_getElem hlt, hget])
              exact (this.map (taskPacket p.dest)).symm
            rw [hon_perm hperm, hon_cons, hon_one (show z.H (taskPacket p.dest vm).src from hvx)] at hwire
            have hd := hi.two (p := p) (q := taskPacket p.dest vm)
              (R := z.hon (w ++ w') + ↑((st.outgoing.filterMap taskMessage).map (packetOf p.dest)) +
                z.hon ((st.tasks.eraseIdx i).map (taskPacket p.dest)) + R + gh) (by rw [hwire]; abel)
            obtain ⟨m, hm, hau', -⟩ := hok.tasks vm hvm
            apply hd
            refine ⟨hx, hvs.symm, rfl, ?_⟩
            have e1 : (taskPacket p.dest vm).message.direct = m.direct := by rw [hm]; rfl
            rw [e1, hau'.1.1, hau.1.1]
            rfl
        rw [preprocess_process ok.mt hwf hau hne' hpr] at hst
        simp only [PreOutcome.ok?, Option.some.injEq] at hst
        subst hst
        refine ⟨n, hi, ?_⟩
        rw [← net_self hna]
        refine h.set hip (by simp [hn]) (.running ⟨?_, ?_, ?_, ?_⟩) (gx := 0) ?_ (by simp) hfair
        · exact hok.acc
        · exact hok.joins
        · intro vm hvm
          rcases List.mem_append.1 hvm with hvm | hvm
          · exact hok.tasks vm hvm
          · simp only [List.mem_singleton] at hvm
            subst hvm
            exact ⟨p.message, rfl, by rw [← hs.sid]; exact hau, fun hc => absurd hx hc⟩
        · intro y hy hyp
          simp only [BSet.contains_insert] at hyp
          by_cases hyx : y = p.src
          · subst hyx
            exact Or.inr ⟨_, List.mem_append.2 (Or.inr (List.mem_singleton.2 rfl)), rfl⟩
          · rcases hok.processing y hy (by simpa [hyx] using hyp) with hh | ⟨vm, hvm, hvs⟩
            · exact Or.inl hh
            · exact Or.inr ⟨vm, List.mem_append.2 (Or.inl hvm), hvs⟩
        · rw [hn, hhon]
          simp only [held, List.map_append, List.map_cons, List.map_nil, hon_append, ← hpe]
          abel
      · -- of the next one
        have hnc' : ¬ IsCached st.accum p.src (z.pl.idAt (t + 1)) := by
          rw [hok.acc] at hnc
          exact hnc
        rw [preprocess_keep ok.mt hwf hau hid hsim hne' hnc'] at hst
        simp only [PreOutcome.ok?, Option.some.injEq] at hst
        subst hst
        have hdel := deliver_keeps ok.mt hwf hau hid hsim hne hnc
        obtain ⟨v, v', hvv⟩ := List.append_of_mem hmem
        have hrec := hi.receive ok hvv hna hdel
        refine ⟨_, hrec, ?_⟩
        refine h.set (w' := v ++ v' ++ []) hip (by simp [hn]) (.running ⟨?_, ?_, ?_, ?_⟩) (gx := 0) ?_ (by simp) hfair
        · have hca : a.cached = st.accum.cached := by rw [hok.acc]
          simp only [hca]
          conv_lhs => rw [hok.acc]
        · exact hok.joins
        · exact hok.tasks
        · exact hok.processing
        · rw [hn, hhon, hvv, hon_one hx]
          simp only [held, List.append_nil, ← Multiset.coe_add, ← Multiset.cons_coe, ← Multiset.singleton_add]
          abel
    · -- another party
      cases hp : s.preprocess st.accum p.src p.message with
      | error er =>
        simp only [hp, Option.some.injEq] at hst
        subst hst
        refine h.ends ok hi hn (by simp) (gp := z.hon [p]) (gx := ↑((st.outgoing.filterMap taskMessage).map (packetOf p.dest))) ?_ ?_
          (fun _ => ⟨er, rfl⟩) hfair
        · rw [hhon]
        · rw [hon_other hx]; simp
      | ok ro =>
        obtain ⟨acc, o⟩ := ro
        simp only [hp] at hst
        rw [preprocess_loc] at hp
        cases hl : Loc.pre s p.src p.message (st.accum.loc p.src) with
        | error er => simp [hl, liftLoc₂] at hp
        | ok lo =>
          obtain ⟨l, o'⟩ := lo
          simp only [hl, liftLoc₂, Except.ok.injEq, Prod.mk.injEq] at hp
          obtain ⟨rfl, rfl⟩ := hp
          have hpre := pre_ok hl
          -- the same change in the other network
          have key : z.LocInv G e p.dest t p.src { l with artifact := (a.loc p.src).artifact, processing := (a.loc p.src).processing } →
              l.artifact = (st.accum.loc p.src).artifact → l.payload = (st.accum.loc p.src).payload → ∀ ts : List (VerifiedMessage sp),
              (∀ vm ∈ ts, vm.sender = p.src ∧ ∃ m, vm = verifiedOf vm.sender m ∧
                Authentic vm.sender z.pl.g.sid s.roundId m.direct m.echo m.normal ∧ (¬ z.H vm.sender → z.Fair vm.sender m)) →
              ∃ n', z.NetInv G e n' ∧ z.PSim ⟨Function.update c.node p.dest
                (some (.running s ⟨st.accum.setLoc p.src l, st.tasks ++ ts, st.outgoing⟩)), w ++ w'⟩ n' := by
            intro hli hart hpl ts hts
            refine ⟨_, hi.other ok hna he hx hli rfl, ?_⟩
            refine h.set hip (by simp [hn]) (.running ⟨?_, ?_, ?_, ?_⟩) (gx := 0) ?_ (by simp) hfair
            · exact NodeOk.acc_set hok.acc p.src l _
            · rw [setLoc_artifacts (l := { l with artifact := (a.loc p.src).artifact, processing := (a.loc p.src).processing }) rfl]
              have : (st.accum.setLoc p.src l).artifacts = st.accum.artifacts := setLoc_artifacts hart
              simp only [this]
              exact hok.joins
            · intro vm hvm
              rcases List.mem_append.1 hvm with hvm | hvm
              · exact hok.tasks vm hvm
              · exact (hts vm hvm).2
            · intro y hy hyp
              have hyx : y ≠ p.src := by rintro rfl; exact hx hy
              have hly : (st.accum.setLoc p.src l).loc y = st.accum.loc y := Accum.loc_setLoc_other _ hyx _
              have h1 := congrArg Loc.processing hly
              have h2 := congrArg Loc.payload hly
              simp only [Accum.loc] at h1 h2
              simp only at hyp
              rw [h1] at hyp
              rcases hok.processing y hy hyp with hh | ⟨vm, hvm, hvs⟩
              · left
                simp only
                rw [contains_isSome] at hh ⊢
                rw [h2]
                exact hh
              · exact Or.inr ⟨vm, List.mem_append.2 (Or.inl hvm), hvs⟩
            · have hz : z.hon (ts.map (taskPacket p.dest)) = 0 := by
                rw [Multiset.eq_zero_iff_forall_notMem]
                intro q hq
                obtain ⟨hq, hqx⟩ := mem_hon.1 hq
                obtain ⟨vm, hvm, rfl⟩ := List.mem_map.1 hq
                have : (taskPacket p.dest vm).src = p.src := (hts vm hvm).1
                rw [this] at hqx
                exact hx hqx
              rw [hn, hhon, hon_other hx]
              simp only [held, List.map_append, hon_append, hz, add_zero]
          have hli := ha.loc p.src
          have hla := hok.loc p.src
          cases hpre with
          | ignored hb =>
            simp only [PreOutcome.ok?, Option.some.injEq] at hst
            subst hst
            have := key (by rw [← hla]; exact hli) rfl rfl [] (by simp)
            simpa using this
          | @refused er hb1 hb2 =>
            simp only [PreOutcome.ok?, Option.some.injEq] at hst
            subst hst
            have := key ?_ rfl rfl [] (by simp)
            · simpa using this
            · have hd : Delivered s p.src p.message (a.loc p.src) { a.loc p.src with unprovable := some er } :=
                .refused hb1 (by rw [hla]; exact hb2)
              have := hli.delivered ok hi.history hH hs hd (h.fair p hpw) (fun hc => absurd hc hx)
              rw [hla] at this
              exact this
          | @process vm hb1 hb2 hb3 hvm hau =>
            simp only [PreOutcome.ok?, Option.some.injEq] at hst
            subst hst
            refine key ?_ rfl rfl [vm] ?_
            · rw [hla] at hli
              exact hli
            · intro vm' hvm'
              simp only [List.mem_singleton] at hvm'
              subst hvm' hvm
              exact ⟨rfl, p.message, rfl, by rw [← hs.sid]; exact hau, h.fair p hpw⟩
          | @keep vm hb1 hb2 hb3 hvm hau hrid hsim =>
            simp only [PreOutcome.ok?, Option.some.injEq] at hst
            subst hst
            have := key ?_ rfl rfl [] (by simp)
            · simpa using this
            · have hd : Delivered s p.src p.message (a.loc p.src) { a.loc p.src with
                  cached := some (((a.loc p.src).cached.getD BMap.empty).insert vm.metadata.roundId vm) } :=
                .kept hb1 (by rw [hla]; exact hb2) (by rw [hla]; exact hb3) hvm hau hrid hsim
              have := hli.delivered ok hi.history hH hs hd (h.fair p hpw) (fun hc => absurd hc hx)
              rw [hla] at this
              exact this

theorem Added.frame {tr : Transcript sp} {q : Processed P} {l l' : Loc P} (h : Added tr q l l') (A : Option (Option P.Artifact)) (b : Bool) :
    Added tr q { l with artifact := A, processing := b } { l' with artifact := A, processing := b } := by
  cases h with
  | payload h1 => exact .payload h1
  | provable h1 h2 => exact .provable h1 h2
  | unprovable h1 => exact .unprovable h1

/-- A message of a party following the protocol is processed without errors. -/
theorem PSim.processes (ok : z.Ok) {c : PNet P} {n : Net P} (h : z.PSim c n) {G : History P} {e : sp.Id → Nat} (hi : z.NetInv G e n)
    {i : sp.Id} {s : Session P} {st : ParSt P} (hn : c.node i = some (.running s st)) {vm : VerifiedMessage sp}
    (hvm : vm ∈ st.tasks) (hx : z.H vm.sender) :
    (∃ v, s.round.receive vm.sender vm.dyn = .ok v) ∧ ∃ a, s.addProcessed st.accum (s.process vm) = .ok a := by
  obtain ⟨a, hna, hok⟩ := h.running hn
  have hH := hi.who _ _ hna
  obtain ⟨t, he, hs, ha⟩ := hi.running _ s a hna
  obtain ⟨hveq, g1, g2, g3, g4⟩ := h.task ok hi hn hs he hvm hx
  obtain ⟨-, -, hsrc, -, hcase⟩ := arrives ok hi hna he hs ha hx g1 g2 g3 g4
  have hpay : a.payloads.contains vm.sender = false := by
    rcases hcase with ⟨-, hp, -⟩ | ⟨hc, -⟩
    · exact hp
    · omega
  obtain ⟨v, hv, -⟩ := receives ok hi.history hH hx hsrc hs g3
  have hh := (ha.loc vm.sender).honest hx
  have hpn : (a.loc vm.sender).payload.isSome = false := by rw [contains_isSome] at hpay; exact hpay
  have hns : a.notSent.contains vm.sender = true := by
    have := hh.notSent
    rw [hsrc, hpn] at this
    exact this
  have hres : s.round.receive vm.sender vm.dyn = .ok v := by
    conv_lhs => rw [hveq]
    exact hv
  refine ⟨⟨v, hres⟩, ?_⟩
  have hpay' : st.accum.payloads.contains vm.sender = false := by rw [hok.acc] at hpay; exact hpay
  have hns' : st.accum.notSent.contains vm.sender = true := by rw [hok.acc] at hns; exact hns
  have hres' : (s.process vm).result = .ok v := hres
  have e1 : (s.process vm).message = vm := rfl
  simp only [Session.addProcessed, Accum.addProcessed, e1, hpay', hns', hres']
  simp

/-- The result of processing a message is received. -/
theorem PSim.completes (ok : z.Ok) {c : PNet P} {n : Net P} (h : z.PSim c n) {G : History P} {e : sp.Id → Nat} (hi : z.NetInv G e n)
    {i : sp.Id} {s : Session P} {st : ParSt P} (hn : c.node i = some (.running s st)) {k : Nat} {vm : VerifiedMessage sp}
    (hk : st.tasks[k]? = some vm) {acc : Accum P} (hadd : s.addProcessed st.accum (s.process vm) = .ok acc) :
    ∃ n', z.NetInv G e n' ∧ z.PSim ⟨Function.update c.node i
      (some (.running s { st with accum := acc, tasks := st.tasks.eraseIdx k })), c.wire⟩ n' := by
  classical
  obtain ⟨a, hna, hok⟩ := h.running hn
  have hH := hi.who _ _ hna
  have hip := ok.rob.members _ hH
  obtain ⟨t, he, hs, ha⟩ := hi.running _ s a hna
  have hvm : vm ∈ st.tasks := List.mem_of_getElem? hk
  have hperm := perm_eraseIdx hk
  have htasks : z.hon (st.tasks.map (taskPacket i)) = z.hon [taskPacket i vm] + z.hon ((st.tasks.eraseIdx k).map (taskPacket i)) := by
    rw [hon_perm (hperm.map (taskPacket i)).symm, List.map_cons, hon_cons]
  have hrest : ∀ v ∈ st.tasks.eraseIdx k, v ∈ st.tasks := fun v hv => List.mem_of_mem_eraseIdx hv
  have hstay : ∀ v ∈ st.tasks, v.sender ≠ vm.sender → v ∈ st.tasks.eraseIdx k := by
    intro v hv hne
    rcases List.mem_cons.1 (hperm.symm.subset hv) with rfl | hv
    · exact absurd rfl hne
    · exact hv
  by_cases hx : z.H vm.sender
  · -- a party following the protocol
    obtain ⟨hveq, g1, g2, g3, g4⟩ := h.task ok hi hn hs he hvm hx
    have hmem := h.pending ok hi hn hvm hx
    obtain ⟨hwf, hne, hsrc, hau, hcase⟩ := arrives ok hi hna he hs ha hx g1 g2 g3 g4
    have hpay : a.payloads.contains vm.sender = false := by
      rcases hcase with ⟨-, hp, -⟩ | ⟨hc, -⟩
      · exact hp
      · omega
    rw [← hs.rid] at hau
    obtain ⟨v, hv, -⟩ := receives ok hi.history hH hx hsrc hs g3
    have hh := (ha.loc vm.sender).honest hx
    have hpn : (a.loc vm.sender).payload.isSome = false := by rw [contains_isSome] at hpay; exact hpay
    have hns : a.notSent.contains vm.sender = true := by
      have := hh.notSent
      rw [hsrc, hpn] at this
      exact this
    have hdel := deliver_accepts ok.mt hwf (a := a) (x := vm.sender) (m := (taskPacket i vm).message) (v := v) hau hne
      (by
        by_contra hc
        have hc : BMap.contains a.processing vm.sender = true := by simpa using hc
        have := hh.processing hc
        rw [hpn] at this
        simp at this) hpay hns hv
    have hpay' : st.accum.payloads.contains vm.sender = false := by rw [hok.acc] at hpay; exact hpay
    have hns' : st.accum.notSent.contains vm.sender = true := by rw [hok.acc] at hns; exact hns
    have hacc : acc = { st.accum with
        notSent := st.accum.notSent.erase vm.sender
        echos := Accum.insertPart st.accum.echos vm.sender (taskPacket i vm).message.echo
        normals := Accum.insertPart st.accum.normals vm.sender (taskPacket i vm).message.normal
        directs := Accum.insertPart st.accum.directs vm.sender (taskPacket i vm).message.direct
        payloads := st.accum.payloads.insert vm.sender v } := by
      have hres : (s.process vm).result = .ok v := by
        show s.round.receive vm.sender vm.dyn = _
        conv_lhs => rw [hveq]
        exact hv
      simp only [Session.addProcessed, Accum.addProcessed] at hadd
      have e1 : (s.process vm).message = vm := rfl
      simp only [e1, hpay', hns', hres] at hadd
      simp only [Bool.false_eq_true, if_false, Bool.true_eq_false, Except.ok.injEq] at hadd
      rw [← hadd]
      rfl
    subst hacc
    obtain ⟨u, u', huu⟩ := List.append_of_mem hmem
    have hrec := hi.receive ok huu (s := s) (a := a) hna hdel
    refine ⟨_, hrec, ?_⟩
    refine h.set (w' := u ++ u' ++ []) hip (by simp [hn]) (.running ⟨?_, ?_, ?_, ?_⟩) (gx := 0) ?_ (by simp) h.fair
    · have e1 : a.notSent = st.accum.notSent := by rw [hok.acc]
      have e2 : a.echos = st.accum.echos := by rw [hok.acc]
      have e3 : a.normals = st.accum.normals := by rw [hok.acc]
      have e4 : a.directs = st.accum.directs := by rw [hok.acc]
      have e5 : a.payloads = st.accum.payloads := by rw [hok.acc]
      simp only [e1, e2, e3, e4, e5]
      conv_lhs => rw [hok.acc]
    · exact hok.joins
    · exact fun w hw => hok.tasks w (hrest w hw)
    · intro y hy hyp
      by_cases hyx : y = vm.sender
      · subst hyx
        left
        simp
      · rcases hok.processing y hy hyp with hp | ⟨w, hw, hws⟩
        · left
          simp [hp]
        · exact Or.inr ⟨w, hstay w hw (by rw [hws]; exact hyx), hws⟩
    · rw [hn, huu]
      simp only [held, htasks, hon_one (show z.H (taskPacket i vm).src from hx), List.append_nil, ← Multiset.coe_add,
        ← Multiset.cons_coe, ← Multiset.singleton_add]
      abel
  · -- another party
    have hadd' := hadd
    simp only [Session.addProcessed] at hadd'
    rw [addProcessed_loc] at hadd'
    have e1 : (s.process vm).message.sender = vm.sender := rfl
    rw [e1] at hadd'
    cases hl : Loc.add s.transcript (s.process vm) (st.accum.loc vm.sender) with
    | error er => simp [hl, liftLoc] at hadd'
    | ok l =>
      simp only [hl, liftLoc, Except.ok.injEq] at hadd'
      subst hadd'
      obtain ⟨hpn, hns, hA⟩ := add_ok hl
      obtain ⟨m, hm, hau, hf⟩ := hok.tasks vm hvm
      have hla := hok.loc vm.sender
      have hA' := Added.frame hA (a.loc vm.sender).artifact (a.loc vm.sender).processing
      rw [← hla] at hA'
      have hrid : s.roundId = z.pl.idAt t := hs.rid
      rw [hrid] at hau
      have hli := (ha.loc vm.sender).added ok hi.history hH hs hau (by rw [hla]; exact hns) (by rw [hla]; exact hpn)
        (by rw [← hm]; exact hA') hf (fun hc => absurd hc hx)
      have hart : l.artifact = (st.accum.loc vm.sender).artifact := by cases hA <;> rfl
      refine ⟨_, hi.other ok hna he hx hli rfl, ?_⟩
      refine h.set hip (by simp [hn]) (.running ⟨?_, ?_, ?_, ?_⟩) (gx := 0) ?_ (by simp) h.fair
      · exact NodeOk.acc_set hok.acc vm.sender l _
      · rw [setLoc_artifacts (l := { l with artifact := (a.loc vm.sender).artifact, processing := (a.loc vm.sender).processing }) rfl]
        have : (st.accum.setLoc vm.sender l).artifacts = st.accum.artifacts := setLoc_artifacts hart
        simp only [this]
        exact hok.joins
      · exact fun w hw => hok.tasks w (hrest w hw)
      · intro y hy hyp
        have hyx : y ≠ vm.sender := by rintro rfl; exact hx hy
        have hly : (st.accum.setLoc vm.sender l).loc y = st.accum.loc y := Accum.loc_setLoc_other _ hyx _
        have h1 := congrArg Loc.processing hly
        have h2 := congrArg Loc.payload hly
        simp only [Accum.loc] at h1 h2
        simp only at hyp
        rw [h1] at hyp
        rcases hok.processing y hy hyp with hh | ⟨w, hw, hws⟩
        · left
          simp only
          rw [contains_isSome] at hh ⊢
          rw [h2]
          exact hh
        · exact Or.inr ⟨w, hstay w hw (by rw [hws]; exact hyx), hws⟩
      · rw [hn]
        simp only [held, htasks, hon_other (show ¬ z.H (taskPacket i vm).src from hx), add_zero, zero_add]

/-- The result of a task is received. -/
theorem PSim.tasks (ok : z.Ok) {c : PNet P} {n : Net P} (h : z.PSim c n) {G : History P} {e : sp.Id → Nat} (hi : z.NetInv G e n)
    {i : sp.Id} {s : Session P} {st : ParSt P} {st' : ParState P} {o : ParOp sp} (hn : c.node i = some (.running s st))
    (hen : o.Enabled st) (hst : parStep (.running s st) (.op o) = some st') :
    ∃ n', z.NetInv G e n' ∧ z.PSim (c.put i st' (parOut st (.op o))) n' := by
  classical
  obtain ⟨a, hna, hok⟩ := h.running hn
  have hH := hi.who _ _ hna
  have hip := ok.rob.members _ hH
  simp only [parStep] at hst
  cases hc : st.accum.canFinalize with
  | yes => simp [hc] at hst
  | never => simp [hc] at hst
  | notYet =>
    simp only [hc] at hst
    cases o with
    | deliver x m => exact absurd hen (by simp [ParOp.Enabled])
    | complete k =>
      have hout : parOut st (.op (.complete k)) = [] := rfl
      rw [hout]
      have hput : c.put i st' [] = ⟨Function.update c.node i (some st'), c.wire⟩ := by simp [PNet.put]
      rw [hput]
      simp only [parOp] at hst
      cases hk : st.tasks[k]? with
      | none =>
        have : k < st.tasks.length := hen
        rw [List.getElem?_eq_none_iff] at hk
        omega
      | some vm =>
        simp only [hk] at hst
        cases hadd : s.addProcessed st.accum (s.process vm) with
        | error er =>
          simp only [hadd, Option.some.injEq] at hst
          subst hst
          exact h.ends ok hi hn (by simp) (gp := 0) (gx := ↑((st.outgoing.filterMap taskMessage).map (packetOf i))) (by simp) (by simp)
            (fun _ => ⟨er, rfl⟩) h.fair
        | ok acc =>
          simp only [hadd, Option.some.injEq] at hst
          subst hst
          exact h.completes ok hi hn hk hadd
    | send k =>
      obtain ⟨o, m, ho, hm⟩ := hen
      obtain ⟨A', hA, hJ⟩ := hok.joins.take ho
      have hap := hA st.accum rfl
      obtain ⟨d, res⟩ := o
      cases res with
      | error er => simp [taskMessage] at hm
      | ok r =>
        obtain ⟨m', art⟩ := r
        simp only [taskMessage, Option.some.injEq] at hm
        subst hm
        simp only [outApply] at hap
        simp only [parOp, ho, hap, Option.some.injEq] at hst
        subst hst
        have hout : parOut st (.op (.send k)) = [m'] := by simp only [parOut, ho, taskMessage, Option.toList_some]
        rw [hout]
        refine ⟨n, hi, ?_⟩
        rw [← net_self hna]
        refine h.set (w := c.wire ++ [m'].map (packetOf i)) hip (by simp [hn]) (.running ⟨?_, ?_, ?_, ?_⟩) (gx := 0) ?_ (by simp) ?_
        · exact hok.acc
        · exact hJ
        · exact hok.tasks
        · exact hok.processing
        · have hperm := (filterMap_eraseIdx ho (f := taskMessage) (b := m') rfl).map (packetOf i)
          have heq : (((st.outgoing.filterMap taskMessage).map (packetOf i) : List (Packet sp)) : Multiset (Packet sp)) =
              {packetOf i m'} + ↑(((st.outgoing.eraseIdx k).filterMap taskMessage).map (packetOf i)) := by
            rw [Multiset.coe_eq_coe.2 hperm]
            rfl
          rw [hn]
          simp only [held, heq, hon_append, List.map_cons, List.map_nil, hon_one (show z.H (packetOf i m').src from hH)]
          abel
        · intro p hp hps
          rcases List.mem_append.1 hp with hp | hp
          · exact h.fair p hp hps
          · simp only [List.map_cons, List.map_nil, List.mem_singleton] at hp
            subst hp
            exact absurd hH hps

/-- Every step of the network has a counterpart. -/
theorem PSim.step (ok : z.Ok) (env : sp.EnvOk) (dm : DirectsMade z.pl z.H) {adv : Packet sp → Prop}
    (hadv : ∀ p, ¬ z.H p.src → adv p → z.Fair p.src p.message) {c c' : PNet P} {n : Net P} (h : z.PSim c n)
    {G : History P} {e : sp.Id → Nat} (hi : z.NetInv G e n) (hst : PByzStep z.pl.g z.H adv c c') :
    ∃ G' e' n', z.NetInv G' e' n' ∧ z.PSim c' n' := by
  cases hst with
  | start rng rng' hH hn =>
    obtain ⟨G', e', n', h1, h2, -⟩ := h.starts ok env dm hi hH hn rng rng'
    exact ⟨G', e', n', h1, h2⟩
  | tick hn hs =>
    obtain ⟨G', e', n', h1, h2, -⟩ := h.ticks ok env dm hi hn hs
    exact ⟨G', e', n', h1, h2⟩
  | task hn hen hs =>
    obtain ⟨n', h1, h2⟩ := h.tasks ok hi hn hen hs
    exact ⟨G, e, n', h1, h2⟩
  | deliver hw hn hs =>
    obtain ⟨n', h1, h2⟩ := h.delivers ok hi hw hn hs
    exact ⟨G, e, n', h1, h2⟩
  | @inject p hp ha =>
    refine ⟨G, e, n, hi, h.node, ?_, ?_⟩
    · obtain ⟨gh, h1, h2⟩ := h.wire
      exact ⟨gh, by rw [hon_append, hon_other hp, add_zero]; exact h1, h2⟩
    · intro q hq hqs
      rcases List.mem_append.1 hq with hq | hq
      · exact h.fair q hq hqs
      · simp only [List.mem_singleton] at hq
        subst hq
        exact hadv q hqs ha

theorem PSim.reach (ok : z.Ok) (env : sp.EnvOk) (dm : DirectsMade z.pl z.H) {adv : Packet sp → Prop}
    (hadv : ∀ p, ¬ z.H p.src → adv p → z.Fair p.src p.message) {c : PNet P} (h : PByzReach z.pl.g z.H adv c) :
    ∃ G e n, z.NetInv G e n ∧ z.PSim c n := by
  induction h with
  | init => exact ⟨_, _, _, NetInv.init, PSim.init⟩
  | step _ hs ih =>
    obtain ⟨G, e, n, h1, h2⟩ := ih
    exact h2.step ok env dm hadv h1 hs

end Byz

end Manul
