import Verif.Lemmas.Open
import Verif.Lemmas.ParEvidence
import Verif.Spec.ParOpen

/-! # The network of parties using `par_run_session`, controlled by an adversary -/

namespace Manul

variable {sp : SP} {P : Proto sp} {Q Q' : SignedPart .direct → SignedPart .echo → SignedPart .normal → Prop}
  {Vis : sp.Id → Session P → Prop}

/-! The lemmas are about a network that allows more than both drivers do; `Vis` are the sessions parties can be in. -/

/-- The packet is one party `x` sends in the round with the given id. -/
def OwnPacketOf (Vis : sp.Id → Session P → Prop) (x : sp.Id) (rid : RoundId) (q : Packet sp) : Prop :=
  q.src = x ∧ q.dest = q.message.destination ∧ ∃ s, Vis x s ∧ s.transition.id = rid ∧ MadeIn s q.message

/-- The three parts are ones party `x` has sent in the round with the given id, not necessarily in one message. -/
def SentInOf (Vis : sp.Id → Session P → Prop) (sent : List (Packet sp)) (x : sp.Id) (rid : RoundId) (m : DynMsg) : Prop :=
  ∃ qe ∈ sent, ∃ qn ∈ sent, ∃ qd ∈ sent, OwnPacketOf Vis x rid qe ∧ OwnPacketOf Vis x rid qn ∧ OwnPacketOf Vis x rid qd ∧
    m = ⟨qe.message.echo.part, qn.message.normal.part, qd.message.direct.part⟩

/-- One step of the network.  Any number of operations may be done at once, and messages of the round may be sent at any time. -/
inductive LooseStep (Vis : sp.Id → Session P → Prop) (g : Group P) (H : sp.Id → Prop) : PNet P → PNet P → Prop where
  | noSession {n : PNet P} {i : sp.Id} {e : LErr} : n.node i = none → LooseStep Vis g H n (n.put i (.done (.error e)) [])
  | begin {n : PNet P} {i : sp.Id} {rng rng' : sp.Rng} {s₀ : Session P} {ops : List (ParOp sp)} {st : ParSt P}
      {out : List (Message sp)} : H i → n.node i = none → Session.new rng g.sid (g.signer i) (g.ep i) = .ok s₀ → Vis i s₀ →
      ParRound s₀ rng' [] ops st → parDeliveries ops = [] → (∀ m ∈ out, MadeIn s₀ m) →
      LooseStep Vis g H n (n.put i (.running s₀ st) out)
  | beginFails {n : PNet P} {i : sp.Id} {rng : sp.Rng} {s₀ : Session P} {e : LErr} {out : List (Message sp)} :
      n.node i = none → Session.new rng g.sid (g.signer i) (g.ep i) = .ok s₀ → Vis i s₀ → (∀ m ∈ out, MadeIn s₀ m) →
      LooseStep Vis g H n (n.put i (.done (.error e)) out)
  | ops {n : PNet P} {i : sp.Id} {s : Session P} {st st' : ParSt P} {ops : List (ParOp sp)} {out : List (Message sp)} :
      n.node i = some (.running s st) → foldE (parOp s) st ops = .ok st' →
      (∀ y m, (y, m) ∈ parDeliveries ops → Unforged H g.sid n.wire m.direct m.echo m.normal) → (∀ m ∈ out, MadeIn s m) →
      LooseStep Vis g H n (n.put i (.running s st') out)
  | enter {n : PNet P} {i : sp.Id} {s s' : Session P} {st st' : ParSt P} {a : Accum P} {cached : List (VerifiedMessage sp)}
      {rng rng' : sp.Rng} {ops : List (ParOp sp)} {out : List (Message sp)} :
      n.node i = some (.running s st) → parJoin st = .ok a → a.canFinalize = .yes →
      s.finalizeRound rng a = .ok (.anotherRound s' cached) → Vis i s' → ParRound s' rng' cached ops st' →
      parDeliveries ops = [] → (∀ m ∈ out, MadeIn s m ∨ MadeIn s' m) → LooseStep Vis g H n (n.put i (.running s' st') out)
  | enterFails {n : PNet P} {i : sp.Id} {s s' : Session P} {st : ParSt P} {a : Accum P} {cached : List (VerifiedMessage sp)}
      {rng : sp.Rng} {e : LErr} {out : List (Message sp)} :
      n.node i = some (.running s st) → parJoin st = .ok a → a.canFinalize = .yes →
      s.finalizeRound rng a = .ok (.anotherRound s' cached) → Vis i s' → (∀ m ∈ out, MadeIn s' m) →
      LooseStep Vis g H n (n.put i (.done (.error e)) out)
  | ends {n : PNet P} {i : sp.Id} {s : Session P} {st : ParSt P} {r : Except LErr (Report P)} {out : List (Message sp)} :
      n.node i = some (.running s st) → (∀ rep, r = .ok rep → ∃ a, parJoin st = .ok a ∧ EndsWith s a rep) →
      (∀ m ∈ out, MadeIn s m) → LooseStep Vis g H n (n.put i (.done r) out)

/-- Any number of steps. -/
inductive LooseSteps (Vis : sp.Id → Session P → Prop) (g : Group P) (H : sp.Id → Prop) (n : PNet P) : PNet P → Prop where
  | refl : LooseSteps Vis g H n n
  | step {n' n'' : PNet P} : LooseSteps Vis g H n n' → LooseStep Vis g H n' n'' → LooseSteps Vis g H n n''

/-- What is known of a party in a round; `L` are the rounds it has been in. -/
def PNodeInv (g : Group P) (H : sp.Id → Prop) (wire : List (Packet sp)) (i : sp.Id) (L : List (Session P)) (s : Session P)
    (st : ParSt P) : Prop :=
  H i ∧ ∃ rng s₀ tr cached rng0 ops, Session.new rng g.sid (g.signer i) (g.ep i) = .ok s₀ ∧ PVisits s₀ tr s cached ∧
    ParRound s rng0 cached ops st ∧ L = tr.map Prod.fst ++ [s] ∧
    (∀ vm ∈ cached, Unforged H g.sid wire vm.direct vm.echo vm.normal) ∧
    (∀ x m, (x, m) ∈ parDeliveries ops → Unforged H g.sid wire m.direct m.echo m.normal) ∧
    Carried (Unforged H g.sid wire) s ∧
    ∀ x ev, s.transcript.provable.get? x = some ev → RecordedIn (Unforged H g.sid wire) L x ev

/-- The rounds are those of a run of party `i`. -/
def PHistInv (g : Group P) (i : sp.Id) (L : List (Session P)) : Prop :=
  L ≠ [] → ∃ rng s₀ tr s c, Session.new rng g.sid (g.signer i) (g.ep i) = .ok s₀ ∧ PVisits s₀ tr s c ∧
    L = tr.map Prod.fst ++ [s]

/-- The invariant; `V` are the rounds each party has been in. -/
structure POpenInv (Vis : sp.Id → Session P → Prop) (g : Group P) (H : sp.Id → Prop) (V : sp.Id → List (Session P)) (n : PNet P) : Prop where
  idle : ∀ i, n.node i = none → V i = []
  hist : ∀ i, PHistInv g i (V i)
  visited : ∀ i, ∀ s ∈ V i, Vis i s
  sent : ∀ q ∈ n.wire, q.dest = q.message.destination ∧ ∃ s ∈ V q.src, MadeIn s q.message
  node : ∀ i s a, n.node i = some (.running s a) → PNodeInv g H n.wire i (V i) s a
  carried : ∀ i, ∀ s ∈ V i, Carried (Unforged H g.sid n.wire) s
  report : ∀ i r, n.node i = some (.done (.ok r)) → ∀ x ev, r.provable.get? x = some ev →
    RecordedIn (Unforged H g.sid n.wire) (V i) x ev

theorem PNodeInv.mono {g : Group P} {H : sp.Id → Prop} {w w' : List (Packet sp)} {i : sp.Id} {L : List (Session P)}
    {s : Session P} {a : ParSt P} (hw : ∀ q ∈ w, q ∈ w') (h : PNodeInv g H w i L s a) : PNodeInv g H w' i L s a := by
  obtain ⟨h1, rng, s₀, tr, c, r0, ops, h2, h3, h4, h6, h7, h8, h9, h10⟩ := h
  exact ⟨h1, rng, s₀, tr, c, r0, ops, h2, h3, h4, h6, fun vm hvm => (h7 vm hvm).mono hw,
    fun x m hm => (h8 x m hm).mono hw, h9.mono fun _ _ _ h => h.mono hw,
    fun x ev he => (h10 x ev he).mono (fun _ _ _ h => h.mono hw) fun _ h => h⟩

theorem PNodeInv.q {g : Group P} {H : sp.Id → Prop} {w : List (Packet sp)} {i : sp.Id} {L : List (Session P)}
    {s : Session P} {st : ParSt P} (h : PNodeInv g H w i L s st) (x : sp.Id) : QInv (Unforged H g.sid w) s x (st.accum.loc x) := by
  obtain ⟨-, rng, s₀, tr, c, r0, ops, h2, h3, h4, -, h7, h8, -, -⟩ := h
  obtain ⟨hp, -, -, -, hm⟩ := new_proper h2
  have hi := pvisits_inv hp hm h3
  exact ((parRound_ainv h4 (fun vm hvm => ⟨by rw [hi.sessionId]; exact hi.authentic vm hvm, h7 vm hvm⟩) h8).1 x).2

theorem PNodeInv.qJoin {g : Group P} {H : sp.Id → Prop} {w : List (Packet sp)} {i : sp.Id} {L : List (Session P)}
    {s : Session P} {st : ParSt P} (h : PNodeInv g H w i L s st) {a : Accum P} (hj : parJoin st = .ok a) (x : sp.Id) :
    QInv (Unforged H g.sid w) s x (a.loc x) := by
  obtain ⟨-, rng, s₀, tr, c, r0, ops, h2, h3, h4, -, h7, h8, -, -⟩ := h
  obtain ⟨hp, -, -, -, hm⟩ := new_proper h2
  have hi := pvisits_inv hp hm h3
  exact (anyRound_ainv ⟨r0, ops, st, h4, hj, rfl⟩
    (fun vm hvm => ⟨by rw [hi.sessionId]; exact hi.authentic vm hvm, h7 vm hvm⟩) h8 x).2

/-- The session a party is in belongs to it. -/
theorem PNodeInv.session {g : Group P} {H : sp.Id → Prop} {w : List (Packet sp)} {i : sp.Id} {L : List (Session P)}
    {s : Session P} {a : ParSt P} (h : PNodeInv g H w i L s a) :
    s ∈ L ∧ Proper s ∧ s.sessionId = g.sid ∧ s.me = sp.verifyingKey (g.signer i) := by
  obtain ⟨-, rng, s₀, tr, c, r0, ops, hnew, hv, -, rfl, -⟩ := h
  obtain ⟨hp, hsid, hsg, -, hmain⟩ := new_proper hnew
  have hi := pvisits_inv hp hmain hv
  exact ⟨by simp, hi.proper, hi.sessionId.trans hsid, by rw [hi.proper.me, hi.signer, hsg]⟩

theorem POpenInv.put {g : Group P} {H : sp.Id → Prop} {V : sp.Id → List (Session P)} {n : PNet P} (h : POpenInv Vis g H V n)
    {i : sp.Id} {st : ParState P} {out : List (Message sp)} {L : List (Session P)} (hL : ∀ s ∈ V i, s ∈ L)
    (hh : PHistInv g i L) (hvis : ∀ s ∈ L, Vis i s) (hout : ∀ m ∈ out, ∃ s ∈ L, MadeIn s m)
    (hn : ∀ s a, st = .running s a → PNodeInv g H n.wire i L s a)
    (hc : ∀ s ∈ L, Carried (Unforged H g.sid n.wire) s)
    (hr : ∀ r, st = .done (.ok r) → ∀ x ev, r.provable.get? x = some ev → RecordedIn (Unforged H g.sid n.wire) L x ev) :
    (∀ j, ∀ s ∈ V j, s ∈ Function.update V i L j) ∧ POpenInv Vis g H (Function.update V i L) (n.put i st out) := by
  have hw : ∀ q ∈ n.wire, q ∈ (n.put i st out).wire := fun q hq => List.mem_append_left _ hq
  have hV : ∀ j, ∀ s ∈ V j, s ∈ Function.update V i L j := by
    intro j s hs
    by_cases hj : j = i
    · subst hj
      rw [Function.update_self]
      exact hL s hs
    · rw [Function.update_of_ne hj]
      exact hs
  refine ⟨hV, ?_, ?_, ?_, ?_, ?_, ?_, ?_⟩
  · intro j hj
    by_cases hji : j = i
    · subst hji
      simp [PNet.put] at hj
    · simp only [PNet.put, Function.update_of_ne hji] at hj ⊢
      exact h.idle j hj
  · intro j
    by_cases hji : j = i
    · subst hji
      rw [Function.update_self]
      exact hh
    · rw [Function.update_of_ne hji]
      exact h.hist j
  · intro j s hs
    by_cases hji : j = i
    · subst hji
      rw [Function.update_self] at hs
      exact hvis s hs
    · rw [Function.update_of_ne hji] at hs
      exact h.visited j s hs
  · intro q hq
    rcases List.mem_append.1 hq with hq | hq
    · obtain ⟨h1, s, hs, h2⟩ := h.sent q hq
      exact ⟨h1, s, hV _ s hs, h2⟩
    · obtain ⟨m, hm, rfl⟩ := List.mem_map.1 hq
      refine ⟨rfl, ?_⟩
      simp only [Function.update_self]
      exact hout m hm
  · intro j s a hj
    by_cases hji : j = i
    · subst hji
      simp only [PNet.put, Function.update_self, Option.some.injEq] at hj
      rw [Function.update_self]
      exact (hn s a hj).mono hw
    · simp only [PNet.put, Function.update_of_ne hji] at hj
      rw [Function.update_of_ne hji]
      exact (h.node j s a hj).mono hw
  · intro j s hs
    by_cases hji : j = i
    · subst hji
      rw [Function.update_self] at hs
      exact (hc s hs).mono fun _ _ _ h => h.mono hw
    · rw [Function.update_of_ne hji] at hs
      exact (h.carried j s hs).mono fun _ _ _ h => h.mono hw
  · intro j r hj x ev he
    by_cases hji : j = i
    · subst hji
      simp only [PNet.put, Function.update_self, Option.some.injEq] at hj
      rw [Function.update_self]
      exact (hr r hj x ev he).mono (fun _ _ _ h => h.mono hw) fun _ h => h
    · simp only [PNet.put, Function.update_of_ne hji] at hj
      rw [Function.update_of_ne hji]
      exact (h.report j r hj x ev he).mono (fun _ _ _ h => h.mono hw) fun _ h => h

theorem POpenInv.init (Vis : sp.Id → Session P → Prop) (g : Group P) (H : sp.Id → Prop) : POpenInv Vis g H (fun _ => []) (PNet.init : PNet P) := by
  refine ⟨fun _ _ => rfl, fun _ h => absurd rfl h, by simp, ?_, ?_, by simp, ?_⟩
  · intro q hq
    simp [PNet.init] at hq
  · intro i s a h
    simp [PNet.init] at h
  · intro i r h
    simp [PNet.init] at h

theorem POpenInv.step {g : Group P} {H : sp.Id → Prop} {V : sp.Id → List (Session P)} {n n' : PNet P} (h : POpenInv Vis g H V n)
    (hs : LooseStep Vis g H n n') : ∃ V', (∀ j, ∀ s ∈ V j, s ∈ V' j) ∧ POpenInv Vis g H V' n' := by
  have first : ∀ {s₀ : Session P}, (∃ r, s₀.round = .main r) → ∀ s ∈ [s₀], Carried (Unforged H g.sid n.wire) s := by
    intro s₀ hm s hs
    simp only [List.mem_singleton] at hs
    subst hs
    exact .main hm
  have one : ∀ {i : sp.Id} {s₀ : Session P}, Vis i s₀ → ∀ s ∈ [s₀], Vis i s := by
    intro i s₀ hm s hs
    simp only [List.mem_singleton] at hs
    subst hs
    exact hm
  have more : ∀ {i : sp.Id} {s' : Session P}, Carried (Unforged H g.sid n.wire) s' →
      ∀ s ∈ V i ++ [s'], Carried (Unforged H g.sid n.wire) s := by
    intro i s' hc s hs
    rcases List.mem_append.1 hs with hs | hs
    · exact h.carried i s hs
    · simp only [List.mem_singleton] at hs
      subst hs
      exact hc
  have also : ∀ {i : sp.Id} {s' : Session P}, Vis i s' → ∀ s ∈ V i ++ [s'], Vis i s := by
    intro i s' hc s hs
    rcases List.mem_append.1 hs with hs | hs
    · exact h.visited i s hs
    · exact one hc s hs
  have hist : ∀ {i : sp.Id} {s s' : Session P} {st : ParSt P} {a : Accum P} {cached : List (VerifiedMessage sp)} {rng1 : sp.Rng},
      PNodeInv g H n.wire i (V i) s st → parJoin st = .ok a → a.canFinalize = .yes →
      s.finalizeRound rng1 a = .ok (.anotherRound s' cached) →
      PHistInv g i (V i ++ [s']) ∧ Carried (Unforged H g.sid n.wire) s' := by
    intro i s s' st a cached rng1 hno hj hy hf
    have hqj := hno.qJoin hj
    obtain ⟨hi, rng, s₀, tr, c0, rng0, ops, hnew, hv, hround, hVi, -⟩ := hno
    obtain ⟨hpr, -, -, -, hmain⟩ := new_proper hnew
    have hv' := PVisits.next hv ⟨rng0, ops, st, hround, hj, rfl⟩ hy hf
    exact ⟨fun _ => ⟨rng, s₀, _, s', _, hnew, hv', by rw [hVi]; simp⟩,
      (Carried.next (pvisits_inv hpr hmain hv).proper hqj hf).1⟩
  cases hs with
  | @noSession i e hnone =>
    exact ⟨_, h.put (L := []) (by simp [h.idle i hnone]) (fun h => absurd rfl h) (by simp) (by simp) (by simp) (by simp) (by simp)⟩
  | @beginFails i rng s₀ e out hnone hnew hvis hout =>
    obtain ⟨-, -, -, -, hmain⟩ := new_proper hnew
    exact ⟨_, h.put (L := [s₀]) (by simp [h.idle i hnone]) (fun _ => ⟨rng, s₀, [], s₀, [], hnew, .first, rfl⟩) (one hvis)
      (fun m hm => ⟨s₀, by simp, hout m hm⟩) (by simp) (first hmain) (by simp)⟩
  | @begin i rng rng' s₀ ops st out hi hnone hnew hvis hround hdel hout =>
    obtain ⟨hpr, -, -, ht0, hmain⟩ := new_proper hnew
    refine ⟨_, h.put (L := [s₀]) (by simp [h.idle i hnone]) (fun _ => ⟨rng, s₀, [], s₀, [], hnew, .first, rfl⟩) (one hvis)
      (fun m hm => ⟨s₀, by simp, hout m hm⟩) ?_ (first hmain) (by simp)⟩
    intro s a' heq
    simp only [ParState.running.injEq] at heq
    obtain ⟨rfl, rfl⟩ := heq
    refine ⟨hi, rng, _, [], [], rng', ops, hnew, .first, hround, rfl, by simp, by simp [hdel], .main hmain, ?_⟩
    intro x ev hx
    simp [ht0, Transcript.new] at hx
  | @ops i s st st' ops' out hnode hf hun hout =>
    obtain ⟨hsV, -⟩ := (h.node i s st hnode).session
    obtain ⟨hi, rng, s₀, tr, cached, rng0, ops, hnew, hv, hround, hVi, hcu, hou, hca, htr⟩ := h.node i s st hnode
    refine ⟨_, h.put (L := V i) (fun _ h => h) (h.hist i) (h.visited i) (fun m hm => ⟨s, hsV, hout m hm⟩) ?_
      (h.carried i) (by simp)⟩
    intro s1 a1 heq
    simp only [ParState.running.injEq] at heq
    obtain ⟨rfl, rfl⟩ := heq
    refine ⟨hi, rng, s₀, tr, cached, rng0, ops ++ ops', hnew, hv, (foldE_append _ _ _ _ _).2 ⟨st, hround, hf⟩, hVi, hcu, ?_, hca, htr⟩
    intro x m hm
    rw [parDeliveries_append] at hm
    rcases List.mem_append.1 hm with hm | hm
    · exact hou x m hm
    · exact hun x m hm
  | @ends i s st r out hnode hrep hout =>
    have hno := h.node i s st hnode
    have hqj := fun a => hno.qJoin (a := a)
    obtain ⟨hsV, -⟩ := hno.session
    obtain ⟨hi, rng, s₀, tr, cached, rng0, ops, hnew, hv, hround, hVi, hcu, hou, hca, htr⟩ := hno
    refine ⟨_, h.put (L := V i) (fun _ h => h) (h.hist i) (h.visited i) (fun m hm => ⟨s, hsV, hout m hm⟩) (by simp)
      (h.carried i) ?_⟩
    intro rep hr x ev' hx
    simp only [ParState.done.injEq] at hr
    obtain ⟨a, hj, he⟩ := hrep rep hr
    have key : ∀ t, Updated s.transcript s.roundId s.me s.echo a t → rep.provable = t.provable →
        RecordedIn (Unforged H g.sid n.wire) (V i) x ev' := by
      intro t hu ht
      rw [ht] at hx
      exact hu.recordedIn (hqj a hj) hsV htr hx
    rcases he with ⟨-, rng, hf⟩ | ⟨-, ht'⟩
    · obtain ⟨t, hu, hfin⟩ := finalizeRound_ok hf
      cases hfin with
      | result _ _ => exact key t hu rfl
    · unfold Session.terminateDueToErrors Session.terminateInner at ht'
      cases hu : s.updatedTranscript a with
      | error e => simp [hu] at ht'
      | ok t =>
        simp only [hu, Except.ok.injEq] at ht'
        exact key t (update_iff.1 hu) (by rw [← ht']; rfl)
  | @enterFails i s s' st a cached' rng1 e out hnode hj hy hf hvis hout =>
    obtain ⟨hh, hc⟩ := hist (h.node i s st hnode) hj hy hf
    exact ⟨_, h.put (L := V i ++ [s']) (fun _ h => List.mem_append_left _ h) hh (also hvis)
      (fun m hm => ⟨s', by simp, hout m hm⟩) (by simp) (more hc) (by simp)⟩
  | @enter i s s' st st' a cached' r1 r2 ops' out hnode hj hy hf hvis hround' hdel hout =>
    have hno := h.node i s st hnode
    obtain ⟨hh, hc⟩ := hist hno hj hy hf
    have hqj := hno.qJoin hj
    obtain ⟨hsV, -⟩ := hno.session
    obtain ⟨hi, rng, s₀, tr, cached, rng0, ops, hnew, hv, hround, hVi, hcu, hou, hca, htr⟩ := hno
    obtain ⟨hpr, -, -, -, hmain⟩ := new_proper hnew
    have hv' := PVisits.next hv ⟨rng0, ops, st, hround, hj, rfl⟩ hy hf
    have hcq := (Carried.next (pvisits_inv hpr hmain hv).proper hqj hf).2
    refine ⟨_, h.put (L := V i ++ [s']) (fun _ h => List.mem_append_left _ h) hh (also hvis) ?_ ?_ (more hc) (by simp)⟩
    · intro m hm
      rcases hout m hm with hm | hm
      · exact ⟨s, List.mem_append_left _ hsV, hm⟩
      · exact ⟨s', by simp, hm⟩
    · intro s1 a1 heq
      simp only [ParState.running.injEq] at heq
      obtain ⟨rfl, rfl⟩ := heq
      refine ⟨hi, rng, s₀, _, _, r2, ops', hnew, hv', hround', by rw [hVi]; simp, hcq, by simp [hdel], hc, ?_⟩
      intro x ev' hx
      exact ((finalized_transcript hf).recordedIn hqj hsV htr hx).mono (fun _ _ _ h => h)
        (fun _ h => List.mem_append_left _ h)

theorem POpenInv.steps {g : Group P} {H : sp.Id → Prop} {V : sp.Id → List (Session P)} {n n' : PNet P} (h : POpenInv Vis g H V n)
    (hs : LooseSteps Vis g H n n') : ∃ V', (∀ j, ∀ s ∈ V j, s ∈ V' j) ∧ POpenInv Vis g H V' n' := by
  induction hs with
  | refl => exact ⟨V, fun _ _ h => h, h⟩
  | step _ hs ih =>
    obtain ⟨V', h1, h2⟩ := ih
    obtain ⟨V'', h3, h4⟩ := h2.step hs
    exact ⟨V'', fun j s hs => h3 j s (h1 j s hs), h4⟩

theorem LooseSteps.wire {g : Group P} {H : sp.Id → Prop} {n n' : PNet P} (h : LooseSteps Vis g H n n') : ∀ q ∈ n.wire, q ∈ n'.wire := by
  induction h with
  | refl => exact fun _ h => h
  | step _ hs ih =>
    intro q hq
    cases hs <;> exact List.mem_append_left _ (ih q hq)

/-- In this network every party using `par_run_session` is in a state this driver can be in. -/
def ParEverywhere (g : Group P) (n : PNet P) : Prop :=
  ∀ i s st, n.node i = some (.running s st) →
    ∃ rng s₀, Session.new rng g.sid (g.signer i) (g.ep i) = .ok s₀ ∧ ParAny s₀ (.running s st)

theorem ParEverywhere.init (g : Group P) : ParEverywhere g (PNet.init : PNet P) := by
  intro i s st h
  simp [PNet.init] at h

theorem POpenStep.everywhere {g : Group P} {H : sp.Id → Prop} {n n' : PNet P} (hp : ParEverywhere g n) (h : POpenStep g H n n') :
    ParEverywhere g n' := by
  intro j s st hj
  cases h with
  | @start i rng rng' hi hnone =>
    by_cases hji : j = i
    · subst hji
      simp only [PNet.put, Function.update_self, Option.some.injEq] at hj
      unfold Group.startPar at hj
      split at hj
      · simp at hj
      · rename_i s₀ hnew
        rw [← hj]
        exact ⟨rng, s₀, hnew, .start rng'⟩
    · simp only [PNet.put, Function.update_of_ne hji] at hj
      exact hp j s st hj
  | @act i s1 st1 st' ev out hnode hun hstep hout =>
    by_cases hji : j = i
    · subst hji
      simp only [PNet.put, Function.update_self, Option.some.injEq] at hj
      obtain ⟨rng, s₀, hnew, hany⟩ := hp j _ _ hnode
      rw [← hj]
      exact ⟨rng, s₀, hnew, hany.step hstep⟩
    · simp only [PNet.put, Function.update_of_ne hji] at hj
      exact hp j s st hj

theorem outgoing_made {s : Session P} {rng : sp.Rng} {cached : List (VerifiedMessage sp)} {ops : List (ParOp sp)} {st : ParSt P}
    (h4 : ParRound s rng cached ops st) {m : Message sp} (hm : ∃ o ∈ st.outgoing, taskMessage o = some m) : MadeIn s m := by
  obtain ⟨o, ho, hm⟩ := hm
  obtain ⟨⟨r, hr⟩, hd⟩ := (parRound_art h4).task o ho
  unfold taskMessage at hm
  cases h2 : o.2 with
  | error e => simp [h2] at hm
  | ok x =>
    obtain ⟨m', art⟩ := x
    simp only [h2, Option.some.injEq] at hm
    subst hm
    have hmd := makeMessage_ok (hr.symm.trans h2)
    obtain ⟨r1, hd1⟩ := hmd.direct
    obtain ⟨r2, hsg⟩ := hmd.signed
    refine ⟨by rw [hmd.destination]; exact hd, hmd.echo, hmd.normal, (signed_part hsg).2, r1, art.artifact, ?_⟩
    rw [hmd.destination]
    exact hd1

theorem parStep_loose {g : Group P} {H : sp.Id → Prop} {n : PNet P} {i : sp.Id} {s s₀ : Session P} {st : ParSt P} {st' : ParState P}
    {ev : ParEvent sp} {out : List (Message sp)} (hnode : n.node i = some (.running s st))
    (hun : ∀ y m, ev = .op (.deliver y m) → Unforged H g.sid n.wire m.direct m.echo m.normal) (hany : ParAny s₀ (.running s st))
    (hstep : parStep (.running s st) ev = some st') (hout : ∀ m ∈ out, ∃ o ∈ st.outgoing, taskMessage o = some m)
    (hvis : ∀ s1 st1, st' = .running s1 st1 → Vis i s1) : LooseStep Vis g H n (n.put i st' out) := by
  obtain ⟨tr, cached, rng0, ops, hv, hround⟩ := parAny_running hany
  have hmade := fun m hm => outgoing_made hround (m := m) (hout m hm)
  rcases parStep_full hstep with ⟨r, rfl, hrep⟩ | ⟨o, st1, rfl, hny, ho, rfl⟩ | ⟨a, r1, r2, s', cached', hy, hj, hf, rfl⟩
  · exact .ends hnode hrep hmade
  · refine .ops (ops := [o]) hnode (by simp [foldE, ho]) ?_ hmade
    intro x m hm
    cases o with
    | deliver y m' =>
      simp only [parDeliveries, List.mem_singleton, Prod.mk.injEq] at hm
      obtain ⟨rfl, rfl⟩ := hm
      exact hun _ _ rfl
    | complete k => simp [parDeliveries] at hm
    | send k => simp [parDeliveries] at hm
  · exact .enter (ops := []) hnode hj hy hf (hvis _ _ rfl) rfl rfl fun m hm => Or.inl (hmade m hm)

theorem POpenStep.loose {g : Group P} {H : sp.Id → Prop} {n n' : PNet P} (hp : ParEverywhere g n) (h : POpenStep g H n n') :
    LooseStep (ParVisitedBy g) g H n n' := by
  cases h with
  | @start i rng rng' hi hnone =>
    unfold Group.startPar
    cases hnew : Session.new rng g.sid (g.signer i) (g.ep i) with
    | error e => exact .noSession hnone
    | ok s₀ => exact .begin hi hnone hnew ⟨rng, s₀, _, hnew, .start rng'⟩ (ops := []) rfl rfl (by simp)
  | @act i s st st' ev out hnode hun hstep hout =>
    obtain ⟨rng, s₀, hnew, hany⟩ := hp i _ _ hnode
    exact parStep_loose hnode hun hany hstep hout fun s' st1 hs => ⟨rng, s₀, _, hnew, hs ▸ hany.step hstep⟩

theorem POpenSteps.loose {g : Group P} {H : sp.Id → Prop} {n n' : PNet P} (hp : ParEverywhere g n) (h : POpenSteps g H n n') :
    ParEverywhere g n' ∧ LooseSteps (ParVisitedBy g) g H n n' := by
  induction h with
  | refl => exact ⟨hp, .refl⟩
  | step _ hs ih => exact ⟨hs.everywhere ih.1, ih.2.step (hs.loose ih.1)⟩

theorem POpenSteps.looseInit {g : Group P} {H : sp.Id → Prop} {n : PNet P} (h : POpenSteps g H PNet.init n) :
    LooseSteps (ParVisitedBy g) g H PNet.init n :=
  (h.loose (.init g)).2

theorem POpenSteps.looseNext {g : Group P} {H : sp.Id → Prop} {n n' : PNet P} (h : POpenSteps g H PNet.init n)
    (h' : POpenSteps g H n n') : LooseSteps (ParVisitedBy g) g H n n' :=
  (h'.loose (h.loose (.init g)).1).2

/-- A packet of a party is one of a round it has been in. -/
theorem POpenInv.own {g : Group P} {H : sp.Id → Prop} {V : sp.Id → List (Session P)} {n : PNet P} (h : POpenInv Vis g H V n)
    {q : Packet sp} (hq : q ∈ n.wire) :
    ∃ s ∈ V q.src, MadeIn s q.message ∧ Proper s ∧ s.sessionId = g.sid ∧ s.signer = g.signer q.src ∧ Vis q.src s ∧
      q.message.echo.metadata = ⟨g.sid, s.transition.id⟩ ∧ q.message.normal.metadata = ⟨g.sid, s.transition.id⟩ ∧
      q.message.direct.metadata = ⟨g.sid, s.transition.id⟩ := by
  obtain ⟨-, s, hs, hm⟩ := h.sent q hq
  obtain ⟨rng, s₀, tr, s1, c, hnew, hv, hV⟩ := h.hist q.src (List.ne_nil_of_mem hs)
  obtain ⟨hp, hsid, hsg, -, hmain⟩ := new_proper hnew
  obtain ⟨h1, h2, h3⟩ := pvisits_proper hp hmain hv s (by rw [← hV]; exact hs)
  have hvis := h.visited q.src s hs
  obtain ⟨r1, he⟩ := h1.echo
  obtain ⟨r2, hn⟩ := h1.normal
  refine ⟨s, hs, hm, h1, h2.trans hsid, h3.trans hsg, hvis, ?_, ?_, ?_⟩
  · rw [hm.echo, (signed_part he).2, h2, hsid]
  · rw [hm.normal, (signed_part hn).2, h2, hsid]
  · rw [hm.directMeta, h2, hsid]

theorem psentIn_of {g : Group P} {H : sp.Id → Prop} {V : sp.Id → List (Session P)} {n : PNet P} (h : POpenInv Vis g H V n)
    {x : sp.Id} (hx : H x) {rid : RoundId} {d : SignedPart .direct} {e : SignedPart .echo} {m : SignedPart .normal}
    (hu : Unforged H g.sid n.wire d e m) (ha : Authentic x g.sid rid d e m) :
    SentInOf Vis n.wire x rid ⟨e.part, m.part, d.part⟩ := by
  obtain ⟨⟨ma, va⟩, ⟨mb, vb⟩, ⟨mc, vc⟩⟩ := ha
  obtain ⟨qd, hqd, hsd, hmd, hpd⟩ := hu.direct x hx va (by rw [ma])
  obtain ⟨qe, hqe, hse, hme, hpe⟩ := hu.echo x hx vb (by rw [mb])
  obtain ⟨qn, hqn, hsn, hmn, hpn⟩ := hu.normal x hx vc (by rw [mc])
  refine ⟨qe, hqe, qn, hqn, qd, hqd, ?_, ?_, ?_, by rw [hpe, hpn, hpd]⟩
  · obtain ⟨s, -, hm, -, -, -, hvis, h1, -, -⟩ := h.own hqe
    rw [hse] at hvis
    refine ⟨hse, (h.sent qe hqe).1, s, hvis, ?_, hm⟩
    rw [hme, mb] at h1
    simpa using h1.symm
  · obtain ⟨s, -, hm, -, -, -, hvis, -, h1, -⟩ := h.own hqn
    rw [hsn] at hvis
    refine ⟨hsn, (h.sent qn hqn).1, s, hvis, ?_, hm⟩
    rw [hmn, mc] at h1
    simpa using h1.symm
  · obtain ⟨s, -, hm, -, -, -, hvis, -, -, h1⟩ := h.own hqd
    rw [hsd] at hvis
    refine ⟨hsd, (h.sent qd hqd).1, s, hvis, ?_, hm⟩
    rw [hmd, ma] at h1
    simpa using h1.symm

/-- What is stored as the normal broadcast of a party in an echo round is what it has sent in its echo round. -/
theorem POpenInv.genuine {g : Group P} {H : sp.Id → Prop} {V : sp.Id → List (Session P)} {n : PNet P} (h : POpenInv Vis g H V n)
    (hmi : MainIds P) {i : sp.Id} (hi : H i) {s s' : Session P} {e : EchoRd P} (hs : s ∈ V i) (he : s.round = .echo e)
    {l : Loc P} (hq : QInv (Unforged H g.sid n.wire) s' i l) (hsid : s'.sessionId = g.sid)
    (hid : s.transition.id = s'.transition.id) {m : SignedPart .normal} (hm : l.normal = some m) :
    m.part = s.normal.part := by
  cases hp : l.payload with
  | none =>
    rw [(hq.absent hp).2.1] at hm
    simp at hm
  | some v =>
    obtain ⟨vm, -, hu, ⟨-, -, ⟨mc, vc⟩⟩, -, -, hst, -⟩ := hq.present v hp
    rw [hst] at hm
    rcases storePart_some hm with hm | ⟨rfl, -⟩
    · simp at hm
    · obtain ⟨q, hqw, hsrc, hmeta, hpart⟩ := hu.normal i hi vc (by rw [mc]; exact hsid)
      obtain ⟨s1, hs1, hmade, hp1, -, -, -, -, h1, -⟩ := h.own hqw
      rw [hmeta, mc] at h1
      simp only [Metadata.mk.injEq] at h1
      rw [hsrc] at hs1
      obtain ⟨rng, s₀, tr, sl, c, hnew, hv, hV⟩ := h.hist i (List.ne_nil_of_mem hs)
      obtain ⟨hp0, -, -, -, hmain⟩ := new_proper hnew
      have hecho : s.transition.id.isEcho = true := by
        rw [hV] at hs
        obtain ⟨hp2, -, -⟩ := pvisits_proper hp0 hmain hv s hs
        have := hp2.transition
        rw [he] at this
        simp only [SRound.transition, EchoRd.transition] at this
        unfold TransitionInfo.echo at this
        cases hec : (P.transition e.main).id.echo with
        | error err => simp [hec, mapErr] at this
        | ok eid =>
          simp only [hec, mapErr, Except.ok.injEq] at this
          rw [← this]
          exact (echo_base hec).2.1
      have hr1 : ∃ e1, s1.round = .echo e1 := by
        cases hround : s1.round with
        | echo e1 => exact ⟨e1, rfl⟩
        | main r =>
          obtain ⟨htr, -⟩ := roundId_main hp1 hround
          have hz : s1.transition.id = s.transition.id := h1.2.symm.trans hid.symm
          rw [← hz, htr, hmi r] at hecho
          simp at hecho
      obtain ⟨e1, he1⟩ := hr1
      rw [hV] at hs hs1
      have heq := pvisits_echo_unique hp0 hmain hv s1 hs1 s hs e1 e he1 he (h1.2.symm.trans hid.symm)
      rw [← hpart, hmade.normal, heq]

end Manul
