import Verif.Lemmas.DeviateAcc

/-!
# Executions in which one party deviates: the network

The network of the group with the deviating party is compared with one of a group that follows the protocol, in which the messages
of that party from the stage of the deviation on are not delivered.
-/

namespace Manul

variable {sp : SP} {P : Proto sp}

/-- The states of a party in the network are states of its session. -/
theorem NetReach.origin {g : Group P} {n : Net P} (h : NetReach g n) : ∀ i st, n.node i = some st → (∃ e, st = .done (.error e)) ∨
      ∃ rng s₀, Session.new rng g.sid (g.signer i) (g.ep i) = .ok s₀ ∧ Reach s₀ st := by
  have hput : ∀ {m : Net P} {j : sp.Id} {st' : RunState P} {out : List (Message sp)},
      (∀ i st, m.node i = some st → (∃ e, st = .done (.error e)) ∨
        ∃ rng s₀, Session.new rng g.sid (g.signer i) (g.ep i) = .ok s₀ ∧ Reach s₀ st) →
      ((∃ e, st' = .done (.error e)) ∨ ∃ rng s₀, Session.new rng g.sid (g.signer j) (g.ep j) = .ok s₀ ∧ Reach s₀ st') →
      ∀ i st, (m.put j st' out).node i = some st → (∃ e, st = .done (.error e)) ∨
        ∃ rng s₀, Session.new rng g.sid (g.signer i) (g.ep i) = .ok s₀ ∧ Reach s₀ st := by
    intro m j st' out hm hj i st hi
    by_cases hij : i = j
    · subst hij
      simp only [Net.put, Function.update_self, Option.some.injEq] at hi
      subst hi
      exact hj
    · simp only [Net.put, Function.update_of_ne hij] at hi
      exact hm i st hi
  induction h with
  | init => intro i st hi; simp [Net.init] at hi
  | step _ hs ih =>
    cases hs with
    | @start i rng rng' hi hn =>
      apply hput ih
      unfold Group.startNode
      cases hn : Session.new rng g.sid (g.signer i) (g.ep i) with
      | error e => exact Or.inl ⟨_, rfl⟩
      | ok s => exact Or.inr ⟨rng, s, hn, .start rng'⟩
    | @tick i st st' rng out hn hs =>
      apply hput ih
      rcases ih i st hn with ⟨r, rfl⟩ | ⟨rng0, s₀, h1, h2⟩
      · simp [Manul.step] at hs
      · exact Or.inr ⟨rng0, s₀, h1, .step h2 hs⟩
    | @deliver st st' p w w' out hw hn hs =>
      refine hput (m := ⟨_, _⟩) ih ?_
      rcases ih p.dest st hn with ⟨r, rfl⟩ | ⟨rng0, s₀, h1, h2⟩
      · simp [Manul.step] at hs
      · exact Or.inr ⟨rng0, s₀, h1, .step h2 hs⟩

theorem NetReach.session {g : Group P} {n : Net P} (h : NetReach g n) {i : sp.Id} {s : Session P} {a : Accum P}
    (hi : n.node i = some (.running s a)) :
    ∃ rng s₀, Session.new rng g.sid (g.signer i) (g.ep i) = .ok s₀ ∧ Reach s₀ (.running s a) := by
  rcases h.origin i _ hi with ⟨r, hr⟩ | h
  · cases hr
  · exact h

theorem NetReach.report {g : Group P} {n : Net P} (h : NetReach g n) {i : sp.Id} {rep : Report P}
    (hi : n.node i = some (.done (.ok rep))) :
    ∃ rng s₀, Session.new rng g.sid (g.signer i) (g.ep i) = .ok s₀ ∧ Reach s₀ (.done (.ok rep)) := by
  rcases h.origin i _ hi with ⟨r, hr⟩ | h
  · cases hr
  · exact h

/-- The round a message is for. -/
abbrev Packet.rid (p : Packet sp) : RoundId := p.message.direct.metadata.roundId

/-- A message of stage `K` the deviating party made for `i`. -/
def Bad (L : Ledger P) (t : sp.Id) (K : Nat) (like : Nat → P.Rd → P.Rd → Prop) (i : sp.Id) (m : Message sp) : Prop :=
  ∃ c r' rng art, (L t)[K]? = some c ∧ m.echo.part = c.echo ∧ m.normal.part = c.normal ∧ like K c.rd r' ∧
    P.makeDirect r' rng i = .ok (m.direct.part, art)

theorem Bad.mono {L L' : Ledger P} (hL : L.Ext L') {t : sp.Id} {K : Nat} {like : Nat → P.Rd → P.Rd → Prop} {i : sp.Id}
    {m : Message sp} (h : Bad L t K like i m) : Bad L' t K like i m := by
  obtain ⟨c, r', rng, art, h1, h2⟩ := h
  exact ⟨c, r', rng, art, hL _ _ _ h1, h2⟩

namespace Scheme

/-- A message of the deviating party that is not delivered in the other network. -/
structure Late (sc : Scheme P) (L : Ledger P) (e : sp.Id → Nat) (t : sp.Id) (K : Nat) (like : Nat → P.Rd → P.Rd → Prop)
    (p : Packet sp) (u : Nat) : Prop where
  src : p.src = t
  party : sc.g.parties.contains p.dest = true
  low : 2 * K ≤ u
  sent : u < e t
  expected : (sc.xAt u p.dest).contains t = true
  authentic : Authentic t sc.g.sid (sc.idAt u) p.message.direct p.message.echo p.message.normal
  bad : u = 2 * K → Bad L t K like p.dest p.message

/-- What a party has cached, in the other network and in the network. -/
structure Wait (sc : Scheme P) (L : Ledger P) (e : sp.Id → Nat) (t : sp.Id) (K : Nat) (like : Nat → P.Rd → P.Rd → Prop)
    (T : List (Packet sp)) (i : sp.Id) (q : Nat) (c' c : BMap sp.Id (BMap RoundId (VerifiedMessage sp))) : Prop where
  off : ∀ x, x ≠ t → c.get? x = c'.get? x
  low : sc.nxt q i < 2 * K → c = c'
  bad : sc.nxt q i = 2 * K → ∀ en r vm, c.get? t = some en → en.get? r = some vm → r = sc.idAt (2 * K) ∧
    ∃ m, vm = verifiedOf t m ∧ Authentic t sc.g.sid (sc.idAt (2 * K)) m.direct m.echo m.normal ∧ Bad L t K like i m
  sent : ∀ en r vm, c.get? t = some en → en.get? r = some vm → ∃ u, u < e t ∧ r = sc.idAt u
  fresh : ∀ p ∈ T, p.dest = i → ∀ en vm, c.get? t = some en → en.get? p.rid ≠ some vm

/-- The states of a party other than the deviating one. -/
inductive Other (sc : Scheme P) (L : Ledger P) (e : sp.Id → Nat) (t : sp.Id) (K : Nat) (ch : Charge sp) (like : Nat → P.Rd → P.Rd → Prop)
    (T : List (Packet sp)) (i : sp.Id) (q : Nat) : Option (RunState P) → Option (RunState P) → Prop where
  | idle : Other sc L e t K ch like T i q none none
  | wait {s : Session P} {a : Accum P} {c : BMap sp.Id (BMap RoundId (VerifiedMessage sp))} :
      sc.Wait L e t K like T i q a.cached c →
      Other sc L e t K ch like T i q (some (.running s a)) (some (.running s { a with cached := c }))
  | ban {s : Session P} {a' a : Accum P} : q = 2 * K → Ban ch t a' a →
      Other sc L e t K ch like T i q (some (.running s a')) (some (.running s a))
  | ended {s : Session P} {a' : Accum P} {rep : Report P} : q = 2 * K → rep.Blames ch t →
      Other sc L e t K ch like T i q (some (.running s a')) (some (.done (.ok rep)))

/-- The states of the deviating party. -/
inductive Self (like : Nat → P.Rd → P.Rd → Prop) (q : Nat) : Option (RunState P) → Option (RunState P) → Prop where
  | idle : Self like q none none
  | running {s : Session P} {x : SRound P} {a : Accum P} : TwinR like (spot q).1 s.round x →
      Self like q (some (.running s a)) (some (.running { s with round := x } a))
  | done {r r' : Report P} : r'.provable = r.provable → r'.unprovable = r.unprovable →
      Self like q (some (.done (.ok r))) (some (.done (.ok r')))

/-- The party has the bad message, or it is in transit. -/
def Due (sc : Scheme P) (f : sp.Id → Nat) (t : sp.Id) (K : Nat) (T : List (Packet sp)) (i : sp.Id) (st : Option (RunState P)) : Prop :=
  (∃ p ∈ T, p.dest = i ∧ p.rid = sc.idAt (2 * K)) ∨
    (∃ s a, st = some (.running s a) ∧ f i < 2 * K ∧ IsCached a t (sc.idAt (2 * K))) ∨
    (∃ s a, st = some (.running s a) ∧ a.provable.contains t = true) ∨ ∃ r, st = some (.done r)

/-- The two networks: `n'` is the other one, `W` is in transit in both, `T` only in the network, `T'` only in the other one; the
parties in `E` have ended. -/
structure Sim (sc : Scheme P) (t : sp.Id) (K : Nat) (ch : Charge sp) (like : Nat → P.Rd → P.Rd → Prop) (k : Nat) (n : Net P)
    (L : Ledger P) (e f : sp.Id → Nat) (k' : Nat) (n' : Net P) (W T T' : List (Packet sp)) (E : List sp.Id) : Prop where
  takes : NetTakes sc.g k' n'
  inv : sc.NetInv L e f n'
  wire : n.wire.Perm (W ++ T)
  wire' : n'.wire.Perm (W ++ T')
  below : ∀ i, i ≠ t → f i ≤ 2 * K
  early : ∀ p ∈ W, p.src = t → ∀ u, u < e t → p.rid = sc.idAt u → u < 2 * K
  unheard : ∀ i u, sc.g.parties.contains i = true → 2 * K ≤ u → (sc.xAt u i).contains t = true → ¬ sc.Recv n' f i t u
  late : ∀ p ∈ T, ∃ u, sc.Late L e t K like p u
  held : ∀ p ∈ T', p.src = t ∧ ∃ u, u < e t ∧ 2 * K ≤ u ∧ p.rid = sc.idAt u
  nodup : (T.map (fun p => (p.dest, p.rid))).Nodup
  self : Self like (f t) (n'.node t) (n.node t)
  other : ∀ i, i ≠ t → sc.Other L e t K ch like T i (f i) (n'.node i) (n.node i)
  due : ∀ i, sc.g.parties.contains i = true → i ≠ t → 2 * K < e t → sc.Due f t K T i (n.node i)
  ended : E.Nodup ∧ ∀ i ∈ E, sc.g.parties.contains i = true ∧ i ≠ t ∧ ∃ r, n.node i = some (.done r)
  count : k + T.length = k' + T'.length + E.length

variable {sc : Scheme P} {L L' : Ledger P} {e e' f f' : sp.Id → Nat} {t : sp.Id} {K k k' : Nat}
  {ch : Charge sp} {like : Nat → P.Rd → P.Rd → Prop} {n n' : Net P} {W T T' : List (Packet sp)} {E : List sp.Id}

theorem Late.mono (hL : L.Ext L') (he : e t ≤ e' t) {p : Packet sp} {u : Nat} (h : sc.Late L e t K like p u) :
    sc.Late L' e' t K like p u :=
  ⟨h.src, h.party, h.low, lt_of_lt_of_le h.sent he, h.expected, h.authentic, fun hu => (h.bad hu).mono hL⟩

theorem Late.rid {p : Packet sp} {u : Nat} (h : sc.Late L e t K like p u) : p.rid = sc.idAt u := by
  rw [Packet.rid, h.authentic.1.1]

theorem Wait.mono (hL : L.Ext L') (he : e t ≤ e' t) {T1 : List (Packet sp)} {i : sp.Id} {q : Nat}
    {c' c : BMap sp.Id (BMap RoundId (VerifiedMessage sp))} (h : sc.Wait L e t K like T i q c' c)
    (hT : ∀ p ∈ T1, p ∈ T ∨ ∀ u, u < e t → p.rid ≠ sc.idAt u) : sc.Wait L' e' t K like T1 i q c' c := by
  obtain ⟨h1, h2, h3, h4, h5⟩ := h
  refine ⟨h1, h2, ?_, ?_, ?_⟩
  · intro hq en r vm hen hvm
    obtain ⟨g1, m, g2, g3, g4⟩ := h3 hq en r vm hen hvm
    exact ⟨g1, m, g2, g3, g4.mono hL⟩
  · intro en r vm hen hvm
    obtain ⟨u, hu, hr⟩ := h4 en r vm hen hvm
    exact ⟨u, by omega, hr⟩
  · intro p hp hd en vm hen hvm
    rcases hT p hp with hp' | hp'
    · exact h5 p hp' hd en vm hen hvm
    · obtain ⟨u, hu, hr⟩ := h4 en _ vm hen hvm
      exact hp' u hu hr

theorem Other.mono (hL : L.Ext L') (he : e t ≤ e' t) {T1 : List (Packet sp)} {i : sp.Id} {q : Nat} {o' o : Option (RunState P)}
    (h : sc.Other L e t K ch like T i q o' o) (hT : ∀ p ∈ T1, p ∈ T ∨ ∀ u, u < e t → p.rid ≠ sc.idAt u) :
    sc.Other L' e' t K ch like T1 i q o' o := by
  cases h with
  | idle => exact .idle
  | wait h => exact .wait (h.mono hL he hT)
  | ban h1 h2 => exact .ban h1 h2
  | ended h1 h2 => exact .ended h1 h2

/-- A party whose state is the same in both networks. -/
theorem Wait.refl (ok : sc.Ok) (inv : sc.NetInv L e f n')
    (hun : ∀ i u, sc.g.parties.contains i = true → 2 * K ≤ u → (sc.xAt u i).contains t = true → ¬ sc.Recv n' f i t u)
    (hT : ∀ p ∈ T, ∃ u, sc.Late L e t K like p u) {i : sp.Id} {s : Session P} {a : Accum P}
    (hn : n'.node i = some (.running s a)) : sc.Wait L e t K like T i (f i) a.cached a.cached := by
  obtain ⟨-, -, ha⟩ := inv.running i s a hn
  have hi := inv.party i _ hn
  refine ⟨fun _ _ => rfl, fun _ => rfl, ?_, ?_, ?_⟩
  · intro hq en r vm hen hvm
    obtain ⟨h1, h2, -⟩ := ha.cached t en r vm hen hvm
    exact absurd (Or.inr ⟨s, a, hn, Or.inr ⟨rfl, en, vm, hen, by rw [← h2]; exact hvm⟩⟩)
      (hun i (sc.nxt (f i) i) hi (by omega) h1)
  · intro en r vm hen hvm
    obtain ⟨h1, h2, h3, -⟩ := ha.cached t en r vm hen hvm
    exact ⟨_, h3, h2⟩
  · intro p hp hd en vm hen hvm
    obtain ⟨h1, h2, h3, -⟩ := ha.cached t en _ vm hen hvm
    obtain ⟨u, hu⟩ := hT p hp
    have := inv.ids ok (j := t) hu.sent h3 (by rw [← hu.rid, h2])
    subst this
    exact hun i _ hi hu.low h1 (Or.inr ⟨s, a, hn, Or.inr ⟨rfl, en, vm, hen, by rw [← h2]; exact hvm⟩⟩)

/-- Messages of the deviating party that were not delivered in the other network have still not been received. -/
theorem unheard_keep (ok : sc.Ok) {n1 : Net P} (inv : sc.NetInv L e f n') (inv1 : sc.NetInv L' e' f' n1) (het : e' t = e t)
    (hun : ∀ i u, sc.g.parties.contains i = true → 2 * K ≤ u → (sc.xAt u i).contains t = true → ¬ sc.Recv n' f i t u)
    (hw : ∀ p ∈ n'.wire, p.src = t → (∀ u, u < e t → p.rid = sc.idAt u → 2 * K ≤ u) → p ∈ n1.wire) :
    ∀ i u, sc.g.parties.contains i = true → 2 * K ≤ u → (sc.xAt u i).contains t = true → ¬ sc.Recv n1 f' i t u := by
  intro i u hi hu hx hr
  have hsent := inv1.recv_sent hi hx hr
  rw [het] at hsent
  obtain ⟨p, hp, h1, h2, h3⟩ := inv.sent i t u hi hx hsent (hun i u hi hu hx)
  have hp1 := hw p hp h1 (by
    intro u' hu' hrid
    rw [Packet.rid, h3.roundId] at hrid
    have := inv.ids ok hsent hu' hrid
    omega)
  obtain ⟨-, u', g1, -, g3, g4⟩ := inv1.wire p hp1
  rw [h1, het] at g1
  have : u = u' := inv.ids ok hsent g1 (by rw [← h3.roundId, ← g3.roundId])
  subst this
  rw [h2, h1] at g4
  exact g4 hr

theorem Due.congr {T1 : List (Packet sp)} {i : sp.Id} {o : Option (RunState P)} (h : sc.Due f t K T i o)
    (hf : f' i = f i) (hT : ∀ p ∈ T, p ∈ T1) : sc.Due f' t K T1 i o := by
  rcases h with ⟨p, hp, h1⟩ | ⟨s, a, h1, h2, h3⟩ | h | h
  · exact Or.inl ⟨p, hT p hp, h1⟩
  · exact Or.inr (Or.inl ⟨s, a, h1, by rw [hf]; exact h2, h3⟩)
  · exact Or.inr (Or.inr (Or.inl h))
  · exact Or.inr (Or.inr (Or.inr h))

theorem put_at {m : Net P} {i : sp.Id} {st : RunState P} {out : List (Message sp)} : (m.put i st out).node i = some st := by
  simp [Net.put]

theorem put_ne {m : Net P} {i j : sp.Id} (h : j ≠ i) {st : RunState P} {out : List (Message sp)} :
    (m.put i st out).node j = m.node j := by
  simp [Net.put, Function.update_of_ne h]

theorem perm_out {A W T o : List (Packet sp)} (h : A.Perm (W ++ T)) : (A ++ o).Perm ((W ++ o) ++ T) := by
  classical
  rw [List.perm_iff_count] at h ⊢
  intro x
  have := h x
  simp only [List.count_append] at this ⊢
  omega

theorem perm_out' {A W T o : List (Packet sp)} (h : A.Perm (W ++ T)) : (A ++ o).Perm (W ++ (T ++ o)) := by
  rw [← List.append_assoc]
  exact h.append_right o

/-- Both networks: a party other than the deviating one enters a position. -/
theorem Sim.progress (ok : sc.Ok) (h : sc.Sim t K ch like k n L e f k' n' W T T' E) {i : sp.Id} (hit : i ≠ t)
    {q : Nat} (hq : q ≤ 2 * K) {st' st : RunState P} {out : List (Message sp)} (hL : L.Ext L')
    (inv' : sc.NetInv L' (Function.update e i (q + 1)) (Function.update f i q) (n'.put i st' out))
    (tk : NetTakes sc.g (k' + 1) (n'.put i st' out)) (hnd : ∀ r, n.node i ≠ some (.done r))
    (hoth : (∀ j u, sc.g.parties.contains j = true → 2 * K ≤ u → (sc.xAt u j).contains t = true →
        ¬ sc.Recv (n'.put i st' out) (Function.update f i q) j t u) →
      (∀ p ∈ T, ∃ u, sc.Late L' (Function.update e i (q + 1)) t K like p u) →
      sc.Other L' (Function.update e i (q + 1)) t K ch like T i q (some st') (some st))
    (hdue : sc.g.parties.contains i = true → 2 * K < e t → sc.Due (Function.update f i q) t K T i (some st)) :
    ∃ W', sc.Sim t K ch like (k + 1) (n.put i st out) L' (Function.update e i (q + 1)) (Function.update f i q) (k' + 1)
      (n'.put i st' out) W' T T' E := by
  have hti : t ≠ i := fun hc => hit hc.symm
  have het : Function.update e i (q + 1) t = e t := Function.update_of_ne hti _ _
  have hun := unheard_keep ok h.inv inv' het h.unheard (by
    intro p hp _ _
    exact List.mem_append_left _ hp)
  have hlate : ∀ p ∈ T, ∃ u, sc.Late L' (Function.update e i (q + 1)) t K like p u := by
    intro p hp
    obtain ⟨u, hu⟩ := h.late p hp
    exact ⟨u, hu.mono hL (by rw [het])⟩
  refine ⟨W ++ out.map (fun m => (⟨i, m.destination, m⟩ : Packet sp)), tk, inv', perm_out h.wire, perm_out h.wire', ?_, ?_, hun, hlate, by rw [het]; exact h.held, h.nodup, ?_, ?_, ?_, ?_, ?_⟩
  · intro j hj
    by_cases hji : j = i
    · subst hji; simpa using hq
    · rw [Function.update_of_ne hji]; exact h.below j hj
  · intro p hp hs u hu hr
    rw [het] at hu
    rw [List.mem_append, List.mem_map] at hp
    rcases hp with hp | ⟨m, -, rfl⟩
    · exact h.early p hp hs u hu hr
    · exact absurd hs hit
  · rw [Function.update_of_ne hti, put_ne hti, put_ne hti]
    exact h.self
  · intro j hj
    by_cases hji : j = i
    · subst hji
      rw [put_at, put_at, Function.update_self]
      exact hoth hun hlate
    · rw [put_ne hji, put_ne hji, Function.update_of_ne hji]
      exact (h.other j hj).mono hL (by rw [het]) (fun p hp => Or.inl hp)
  · intro j hj hjt hlt
    rw [het] at hlt
    by_cases hji : j = i
    · subst hji
      rw [put_at]
      exact hdue hj hlt
    · rw [put_ne hji]
      exact (h.due j hj hjt hlt).congr (Function.update_of_ne hji _ _) (fun p hp => hp)
  · refine ⟨h.ended.1, ?_⟩
    intro j hj
    obtain ⟨h1, h2, r, h3⟩ := h.ended.2 j hj
    have hji : j ≠ i := by
      rintro rfl
      exact hnd r h3
    exact ⟨h1, h2, r, by rw [put_ne hji]; exact h3⟩
  · have := h.count
    omega

variable {g : Group P}

/-- A party other than the deviating one starts. -/
theorem Sim.starts (ok : sc.Ok) (dv : Deviation sc g t K ch like) (h : sc.Sim t K ch like k n L e f k' n' W T T' E) {i : sp.Id}
    (hit : i ≠ t) (hi : sc.g.parties.contains i = true) (hn : n.node i = none) (rng rng' : sp.Rng) :
    ∃ L' e' f' n1 W' st out, g.startNode i rng rng' = (st, out) ∧
      sc.Sim t K ch like (k + 1) (n.put i st out) L' e' f' (k' + 1) n1 W' T T' E := by
  have hn' : n'.node i = none := by
    have := h.other i hit
    rw [hn] at this
    generalize ho : n'.node i = o at this
    cases this with
    | idle => rfl
  have hsn : g.startNode i rng rng' = sc.g.startNode i rng rng' := by
    unfold Group.startNode
    rw [dv.sid, dv.signer, dv.ep i hit]
  obtain ⟨L', s, a, out, h1, h2, h3, h4⟩ := h.inv.starts ok hi hn' rng rng'
  have tk : NetTakes sc.g (k' + 1) (n'.put i (.running s a) out) := by
    have := NetTakes.step h.takes (.start rng rng' hi hn')
    rw [h1] at this
    exact this
  obtain ⟨W', hsim⟩ := h.progress ok hit (q := 0) (Nat.zero_le _) (st := .running s a) h3 h4 tk (by rw [hn]; simp)
    (by
      intro hun hlate
      have := Wait.refl ok h4 hun hlate (i := i) (s := s) (a := a) put_at
      rw [Function.update_self] at this
      exact .wait this)
    (by
      intro _ hlt
      have := h.due i hi hit hlt
      rw [hn] at this
      rcases this with h | ⟨_, _, h, _⟩ | ⟨_, _, h, _⟩ | ⟨_, h⟩
      · exact Or.inl h
      all_goals cases h)
  exact ⟨L', _, _, _, W', _, out, by rw [hsn, h1], hsim⟩

/-- The session of a party can make evidence. -/
theorem Sim.evidence (ok : sc.Ok) (dv : Deviation sc g t K ch like) {m : Net P} {k : Nat} (tk : NetTakes sc.g k m) (inv : sc.NetInv L e f m)
    {i : sp.Id} (hit : i ≠ t) {s : Session P} {a : Accum P} (hn : m.node i = some (.running s a)) (hfi : f i = 2 * K) :
    MakesEvidence ch s := by
  have hr : NetReach sc.g m := by
    clear inv hn
    induction tk with
    | init => exact .init
    | step _ hs ih => exact .step ih hs
  obtain ⟨rng, s₀, h1, h2⟩ := hr.session hn
  refine dv.evidence i (inv.party i _ hn) hit rng s₀ h1 s a h2 ?_
  obtain ⟨-, hs, -⟩ := inv.running i s a hn
  rw [hs.rid, hfi]
  unfold Scheme.idAt
  rw [spot_main.2 rfl, posId_main (ok.coop.notEcho K dv.stage)]

/-- The bad message is rejected. -/
theorem rejects (ok : sc.Ok) (dv : Deviation sc g t K ch like) (inv : sc.NetInv L e f n') {i : sp.Id} (hit : i ≠ t)
    {s : Session P} {a : Accum P} (hn : n'.node i = some (.running s a)) (hf : f i = 2 * K) {m : Message sp}
    (hb : Bad L t K like i m) :
    ∃ err, s.round.receive t (verifiedOf t m).dyn = .error err ∧ err.Provable ∧ ch.error err := by
  obtain ⟨-, hs, -⟩ := inv.running i s a hn
  obtain ⟨ct, r', rng, art, h1, h2, h3, h4, h5⟩ := hb
  obtain ⟨ci, g1, g2, -⟩ := hs.round.main K (spot_main.2 hf)
  obtain ⟨err, k1, k2⟩ := dv.rejected L.history i ci.toCell ct.toCell r' rng _ art inv.ledger.honest (inv.party i _ hn) hit
    (Ledger.history_get g1) (Ledger.history_get h1) h4 h5
  refine ⟨err, ?_, k2⟩
  rw [g2]
  have hdyn : (verifiedOf t m).dyn = ⟨ct.echo, ct.normal, m.direct.part⟩ := by
    rw [← h2, ← h3]; rfl
  simp only [SRound.receive, hdyn, k1]

/-- What the position of a party in the network that waits is. -/
theorem Sim.not_finished (h : sc.Sim t K ch like k n L e f k' n' W T T' E) (dv : Deviation sc g t K ch like) {i : sp.Id} (hit : i ≠ t)
    {s : Session P} {a : Accum P} (hn : n'.node i = some (.running s a)) (hf : f i = 2 * K) :
    (sc.xAt (f i) i).contains t = true ∧ a.payloads.contains t = false := by
  have hi := h.inv.party i _ hn
  have hx : (sc.xAt (f i) i).contains t = true := by
    rw [xAt_main (spot_main.2 hf)]
    exact dv.expected i hi hit
  refine ⟨hx, ?_⟩
  by_contra hc
  exact h.unheard i (f i) hi (by omega) hx (Or.inr ⟨s, a, hn, Or.inl ⟨rfl, by simpa using hc⟩⟩)

/-- A party other than the deviating one goes on. -/
theorem Sim.ticks (ok : sc.Ok) (dv : Deviation sc g t K ch like) (h : sc.Sim t K ch like k n L e f k' n' W T T' E) {i : sp.Id}
    (hit : i ≠ t) {st st1 : RunState P} {rng : sp.Rng} {out : List (Message sp)} (hn : n.node i = some st)
    (hstep : step st (.tick rng) = some (st1, out)) :
    ∃ L' e' f' k1 n1 W' E', sc.Sim t K ch like (k + 1) (n.put i st1 out) L' e' f' k1 n1 W' T T' E' := by
  have ho := h.other i hit
  rw [hn] at ho
  generalize ho' : n'.node i = o at ho
  cases ho with
  | @wait s a c hw =>
    have hi := h.inv.party i _ ho'
    obtain ⟨hef, hs, ha⟩ := h.inv.running i s a ho'
    have hcf : ({ a with cached := c } : Accum P).canFinalize = a.canFinalize := rfl
    rcases ha.canFinalize with ⟨hc, hall⟩ | ⟨hc, -⟩
    rotate_left
    · simp [Manul.step, hcf, hc] at hstep
    have hlt : f i < 2 * K := by
      rcases Nat.lt_or_ge (f i) (2 * K) with h1 | h1
      · exact h1
      · exfalso
        have heq : f i = 2 * K := by have := h.below i hit; omega
        obtain ⟨h2, h3⟩ := h.not_finished dv hit ho' heq
        rw [hall, h2] at h3
        cases h3
    have hact : sc.Active (2 * K) i := by
      intro k hk
      rw [spot_echo] at hk
      omega
    have hnx : sc.nxt (f i) i ≤ 2 * K := nxt_le hact hlt
    have hK := dv.stage
    simp only [Manul.step, hcf, hc, Option.some.injEq] at hstep
    rcases h.inv.ticks ok ho' rng hc with ⟨L', s1, a1, out1, h1, -, h3, h4⟩ | ⟨r, -, h2, -⟩
    rotate_left
    · omega
    have tk : NetTakes sc.g (k' + 1) (n'.put i (.running s1 a1) out1) :=
      .step h.takes (.tick (rng := rng) ho' (by simp only [Manul.step, hc, h1]))
    obtain ⟨hef1, hs1, ha1⟩ := h4.running i s1 a1 put_at
    rw [Function.update_self] at hef1 hs1 ha1
    -- what happens in the other network
    unfold finishRound at h1 hstep
    cases hfin : s.finalizeRound (sp.fork rng 0) a with
    | error err => rw [hfin] at h1; simp at h1
    | ok outc =>
      rw [hfin] at h1
      cases outc with
      | finished r => simp at h1
      | anotherRound s2 cs =>
        have hfc := finalize_cached ok hs ha hall hfin
        simp only [enterRound] at h1
        cases hst : startRound s2 (sp.fork rng 1) cs with
        | error err => rw [hst] at h1; simp at h1
        | ok z =>
          obtain ⟨a2, out2⟩ := z
          rw [hst] at h1
          simp only [Prod.mk.injEq, RunState.running.injEq] at h1
          obtain ⟨⟨rfl, rfl⟩, rfl⟩ := h1
          have hcs : cs = Accum.filterMessages a.cached s2.transition.id := by
            have := hfc a.cached
            rw [show ({ a with cached := a.cached } : Accum P) = a from rfl, hfin] at this
            simpa using this
          rw [hfc c, hs1.rid] at hstep
          rw [hs1.rid] at hcs
          simp only at hstep
          -- when the cached messages are the same
          have same : Accum.filterMessages c (sc.idAt (sc.nxt (f i) i)) = cs →
              (sc.nxt (f i) i = 2 * K → ∀ en vm, c.get? t = some en → en.get? (sc.idAt (2 * K)) ≠ some vm) →
              ∃ L' e' f' k1 n1 W' E', sc.Sim t K ch like (k + 1) (n.put i st1 out) L' e' f' k1 n1 W' T T' E' := by
            intro hsame hno
            simp only [enterRound, hsame, hst, Prod.mk.injEq] at hstep
            obtain ⟨rfl, rfl⟩ := hstep
            obtain ⟨W', hsim⟩ := h.progress ok hit hnx (st := .running s2 a2) h3 h4 tk (by rw [hn]; simp)
              (by
                intro hun hlate
                have := Wait.refl ok h4 hun hlate (i := i) (s := s2) (a := a2) put_at
                rw [Function.update_self] at this
                exact .wait this)
              (by
                intro _ hlt2
                have := h.due i hi hit hlt2
                rw [hn] at this
                rcases this with h5 | ⟨s5, a5, h5, -, en, vm, h6, h7⟩ | ⟨s5, a5, h5, h6⟩ | ⟨_, h5⟩
                · exact Or.inl h5
                · simp only [Option.some.injEq, RunState.running.injEq] at h5
                  obtain ⟨rfl, rfl⟩ := h5
                  rcases Nat.lt_or_ge (sc.nxt (f i) i) (2 * K) with h8 | h8
                  · exfalso
                    simp only at h6
                    rw [hw.low h8] at h6
                    obtain ⟨-, h9, h10, -⟩ := ha.cached t en _ vm h6 h7
                    have := h.inv.ids ok (j := t) hlt2 h10 h9
                    omega
                  · exact absurd h7 (hno (by omega) en vm h6)
                · simp only [Option.some.injEq, RunState.running.injEq] at h5
                  obtain ⟨rfl, rfl⟩ := h5
                  obtain ⟨y, hy⟩ := BMap.contains_iff.1 h6
                  simp only [ha.provable] at hy
                  cases hy
                · cases h5)
            exact ⟨L', _, _, _, _, W', E, hsim⟩
          rcases Nat.lt_or_ge (sc.nxt (f i) i) (2 * K) with hl | hl
          · exact same (by rw [hcs, hw.low hl]) (by intro hc; omega)
          · have heq : sc.nxt (f i) i = 2 * K := by omega
            obtain ⟨l1, l2, e1, e2⟩ := filterMessages_without (r := sc.idAt (sc.nxt (f i) i)) hw.off (by
              intro en vm hen hvm
              obtain ⟨g1, -⟩ := ha.cached t en _ vm hen hvm
              exact h.unheard i (sc.nxt (f i) i) hi (by omega) g1 (Or.inr ⟨s, a, ho', Or.inr ⟨rfl, en, vm, hen, hvm⟩⟩))
            rcases e2 with ⟨e2, e3⟩ | ⟨en, vm, e2, e3, e4⟩
            · refine same (by rw [hcs, e1, e2]) ?_
              intro _
              rw [← heq]
              exact e3
            · -- the bad message is among the cached ones
              obtain ⟨-, m, rfl, hau, hbad⟩ := hw.bad heq en _ vm e2 e3
              obtain ⟨hkept, hkmem⟩ := kept ok ha
              have hgood : ∀ w ∈ cs, Good s2 t w := by
                intro w hwc
                rw [hcs] at hwc
                obtain ⟨g1, -, mw, g3, g4⟩ := hkept.good w hwc
                obtain ⟨v, hv, -⟩ := receives ok.env.serMeta ok.coop h4.ledger hi g1 hs1 (g4.mono h3)
                refine ⟨?_, mw, v, g3, hv⟩
                intro hc
                have hmem : t ∈ (Accum.filterMessages a.cached (sc.idAt (sc.nxt (f i) i))).map (fun m => m.sender) :=
                  List.mem_map.2 ⟨w, hwc, hc⟩
                rw [hkmem] at hmem
                rw [hc] at g1
                exact h.unheard i (sc.nxt (f i) i) hi (by omega) g1 (Or.inr ⟨s, a, ho', Or.inr ⟨rfl, hmem⟩⟩)
              obtain ⟨err, hr1, hr2⟩ := rejects ok dv h4 hit (i := i) (s := s2) (a := a2) put_at
                (by rw [Function.update_self]; exact heq) (hbad.mono h3)
              have hme := Sim.evidence ok dv tk h4 hit (i := i) put_at (by rw [Function.update_self]; exact heq)
              have hx : s2.comm.expecting.contains t = true := by
                rw [hs1.comm, heq]
                simp only
                rw [xAt_main (spot_main.2 rfl)]
                exact dv.expected i hi hit
              have hst' := hst
              unfold startRound at hst'
              cases hsa : sendAll s2 (sp.fork rng 1) 0 s2.makeAccum s2.destinations.elems with
              | error err => rw [hsa] at hst'; cases hst'
              | ok z =>
                obtain ⟨a0, ms⟩ := z
                rw [hsa] at hst'
                simp only at hst'
                cases hfo : foldE (applyVerified s2) a0 cs with
                | error err => rw [hfo] at hst'; cases hst'
                | ok a3 =>
                  rw [hfo] at hst'
                  simp only [Except.ok.injEq, Prod.mk.injEq] at hst'
                  obtain ⟨rfl, rfl⟩ := hst'
                  have hcs' : cs = l1 ++ l2 := by rw [hcs, e1]
                  have ha0 := (sendAll_arts hsa).1
                  obtain ⟨b, hb1, hb2⟩ := fold_rejects (s := s2) (t := t) (l1 := l1) (l2 := l2) (a := a0) (b' := a3) (m := m)
                    (fun w hw => hgood w (by rw [hcs']; exact List.mem_append_left _ hw))
                    (fun w hw => hgood w (by rw [hcs']; exact List.mem_append_right _ hw)) (by rw [← hcs']; exact hfo)
                    (by rw [ha0]; rfl) (by rw [ha0]; exact hx) (by intro x; rw [ha0]; rfl) hr1 hr2 hme
                    (by rw [hs1.sid, hs1.rid, heq]; exact hau) hx
                  have hact : enterRound s2 (sp.fork rng 1) (Accum.filterMessages c (sc.idAt (sc.nxt (f i) i))) =
                      (.running s2 b, ms) := by
                    simp only [enterRound, startRound, hsa, e4, hb1]
                  rw [hact] at hstep
                  simp only [Prod.mk.injEq] at hstep
                  obtain ⟨rfl, rfl⟩ := hstep
                  obtain ⟨ev, -, -, hev⟩ := hb2.provable
                  obtain ⟨W', hsim⟩ := h.progress ok hit hnx (st := .running s2 b) h3 h4 tk (by rw [hn]; simp)
                    (fun _ _ => .ban heq hb2)
                    (fun _ _ => Or.inr (Or.inr (Or.inl ⟨s2, b, rfl, BMap.contains_iff.2 ⟨ev, by rw [hev, if_pos rfl]⟩⟩)))
                  exact ⟨L', _, _, _, _, W', E, hsim⟩
  | @ban s a' a hq hb =>
    have hi := h.inv.party i _ ho'
    obtain ⟨hef, hs, ha⟩ := h.inv.running i s a' ho'
    obtain ⟨h2, h3⟩ := h.not_finished dv hit ho' hq
    rcases Ban.canFinalize hb ha h2 h3 with ⟨hc, -⟩ | ⟨hc, -⟩
    rotate_left
    · simp [Manul.step, hc] at hstep
    obtain ⟨rep, hrep, hbl⟩ := Ban.terminates ok hb hs ha
    simp only [Manul.step, hc, Option.some.injEq, Prod.mk.injEq, hrep] at hstep
    obtain ⟨rfl, rfl⟩ := hstep
    refine ⟨L, e, f, k', n', W, i :: E, h.takes, h.inv, ?_, h.wire', h.below, h.early, h.unheard, h.late, h.held, h.nodup, ?_, ?_, ?_, ?_, ?_⟩
    · simpa [Net.put] using h.wire
    · rw [put_ne (fun hc => hit hc.symm)]
      exact h.self
    · intro j hj
      by_cases hji : j = i
      · subst hji
        rw [put_at, ho']
        exact .ended hq hbl
      · rw [put_ne hji]
        exact h.other j hj
    · intro j hj hjt hlt
      by_cases hji : j = i
      · subst hji
        rw [put_at]
        exact Or.inr (Or.inr (Or.inr ⟨_, rfl⟩))
      · rw [put_ne hji]
        exact h.due j hj hjt hlt
    · have hnot : i ∉ E := by
        intro hc
        obtain ⟨-, -, r, hr⟩ := h.ended.2 i hc
        rw [hn] at hr
        cases hr
      refine ⟨List.nodup_cons.2 ⟨hnot, h.ended.1⟩, ?_⟩
      intro j hj
      rw [List.mem_cons] at hj
      rcases hj with rfl | hj
      · exact ⟨hi, hit, _, put_at⟩
      · obtain ⟨h4, h5, r, h6⟩ := h.ended.2 j hj
        have hji : j ≠ i := fun hc => hnot (hc ▸ hj)
        exact ⟨h4, h5, r, by rw [put_ne hji]; exact h6⟩
    · have := h.count
      simp only [List.length_cons]
      omega
  | ended hq hb => simp [Manul.step] at hstep

/-- Both networks: a message is delivered. -/
theorem Sim.delivered (ok : sc.Ok) (h : sc.Sim t K ch like k n L e f k' n' W T T' E) {p : Packet sp} {w w' : List (Packet sp)}
    (hw : n.wire = w ++ p :: w') (hp : p ∈ W) {s : Session P} {a : Accum P} (hn' : n'.node p.dest = some (.running s a))
    (hnf : a.canFinalize = .notYet) {st : RunState P} (hnd : ∀ r, n.node p.dest ≠ some (.done r))
    (hself : ∀ a1, deliver s a p.src p.message = .ok a1 → p.dest = t → Self like (f t) (some (.running s a1)) (some st))
    (hoth : ∀ a1 n1, deliver s a p.src p.message = .ok a1 → sc.NetInv L e f n1 → n1.node p.dest = some (.running s a1) →
      (∀ j u, sc.g.parties.contains j = true → 2 * K ≤ u → (sc.xAt u j).contains t = true → ¬ sc.Recv n1 f j t u) →
      p.dest ≠ t → sc.Other L e t K ch like T p.dest (f p.dest) (some (.running s a1)) (some st))
    (hdue : p.dest ≠ t → sc.Due f t K T p.dest (n.node p.dest) → sc.Due f t K T p.dest (some st)) :
    ∃ n1 W', sc.Sim t K ch like (k + 1) (Net.put ⟨n.node, w ++ w'⟩ p.dest st []) L e f (k' + 1) n1 W' T T' E := by
  obtain ⟨b, b', rfl⟩ := List.append_of_mem hp
  have hp' : p ∈ n'.wire := h.wire'.mem_iff.2 (by simp)
  obtain ⟨v, v', hv⟩ := List.append_of_mem hp'
  obtain ⟨a1, h1, h2⟩ := h.inv.receive ok hv hn'
  have tk : NetTakes sc.g (k' + 1) (Net.put ⟨n'.node, v ++ v'⟩ p.dest (.running s a1) []) :=
    .step h.takes (.deliver hv hn' (by simp only [Manul.step, hnf, h1]))
  have hne : ∀ {m : Net P} {j : sp.Id} (_ : j ≠ p.dest) {u : List (Packet sp)} {st : RunState P},
      (Net.put ⟨m.node, u⟩ p.dest st []).node j = m.node j := by
    intro m j hj u st
    exact put_ne hj
  have hmem : ∀ q ∈ n'.wire, q ≠ p → q ∈ v ++ v' := by
    intro q hq hqp
    rw [hv] at hq
    simp only [List.mem_append, List.mem_cons] at hq ⊢
    tauto
  have hun := unheard_keep ok h.inv h2 rfl h.unheard (by
    intro q hq hqt hqu
    simp only [Net.put, List.map_nil, List.append_nil]
    refine hmem q hq ?_
    rintro rfl
    obtain ⟨-, u, g1, -, g3, -⟩ := h.inv.wire q hq
    rw [hqt] at g1
    have := hqu u g1 g3.roundId
    have := h.early q hp hqt u g1 g3.roundId
    omega)
  have hwire : (w ++ w').Perm (b ++ (b' ++ T)) := perm_drop (p := p) (by rw [← hw]; simpa using h.wire)
  have hwire' : (v ++ v').Perm (b ++ (b' ++ T')) := perm_drop (p := p) (by rw [← hv]; simpa using h.wire')
  refine ⟨_, b ++ b', tk, h2, by simpa [Net.put] using hwire, by simpa [Net.put] using hwire', h.below, ?_, hun, h.late, h.held, h.nodup,
    ?_, ?_, ?_, ?_, ?_⟩
  · intro q hq
    refine h.early q ?_
    simp only [List.mem_append, List.mem_cons] at hq ⊢
    tauto
  · by_cases ht : t = p.dest
    · have := hself a1 h1 ht.symm
      rw [ht] at this ⊢
      rw [put_at, put_at]
      exact this
    · rw [hne ht, hne ht]
      exact h.self
  · intro j hj
    by_cases hji : j = p.dest
    · subst hji
      rw [put_at, put_at]
      exact hoth a1 _ h1 h2 put_at hun hj
    · rw [hne hji, hne hji]
      exact h.other j hj
  · intro j hj hjt hlt
    by_cases hji : j = p.dest
    · subst hji
      rw [put_at]
      exact hdue hjt (h.due _ hj hjt hlt)
    · rw [hne hji]
      exact h.due j hj hjt hlt
  · refine ⟨h.ended.1, ?_⟩
    intro j hj
    obtain ⟨h3, h4, r, h5⟩ := h.ended.2 j hj
    have hji : j ≠ p.dest := by
      rintro rfl
      exact hnd r h5
    exact ⟨h3, h4, r, by rw [hne hji]; exact h5⟩
  · have := h.count
    omega

/-- A message to the deviating party. -/
theorem Sim.deliver_self (ok : sc.Ok) (dv : Deviation sc g t K ch like) (h : sc.Sim t K ch like k n L e f k' n' W T T' E)
    {p : Packet sp} {w w' : List (Packet sp)} (hw : n.wire = w ++ p :: w') (hp : p ∈ W) (hd : p.dest = t)
    {st st1 : RunState P} {out : List (Message sp)} (hn : n.node p.dest = some st)
    (hstep : step st (.deliver p.src p.message) = some (st1, out)) :
    out = [] ∧ ∃ n1 W', sc.Sim t K ch like (k + 1) (Net.put ⟨n.node, w ++ w'⟩ p.dest st1 []) L e f (k' + 1) n1 W' T T' E := by
  have ho := h.self
  rw [← hd, hn] at ho
  generalize ho' : n'.node p.dest = o at ho
  cases ho with
  | @running s x a htw =>
    obtain ⟨-, -, ha⟩ := h.inv.running _ s a ho'
    rcases ha.canFinalize with ⟨hc, -⟩ | ⟨hc, -⟩
    · simp [Manul.step, hc] at hstep
    have hdel := dv.twin_deliver htw a p.src p.message
    have hp' : p ∈ n'.wire := h.wire'.mem_iff.2 (by simp [hp])
    obtain ⟨v, v', hv⟩ := List.append_of_mem hp'
    obtain ⟨a1, h1, h2⟩ := h.inv.receive ok hv ho'
    simp only [Manul.step, hc, hdel, h1, Option.some.injEq, Prod.mk.injEq] at hstep
    obtain ⟨rfl, rfl⟩ := hstep
    refine ⟨rfl, h.delivered ok hw hp ho' hc (by rw [hn]; simp) ?_ (fun _ _ _ _ _ _ hc => absurd hd hc) (fun hc => absurd hd hc)⟩
    intro a2 ha2 _
    rw [h1] at ha2
    cases ha2
    rw [hd] at htw
    exact .running htw
  | done _ _ => simp [Manul.step] at hstep

/-- Nobody is far ahead. -/
theorem Sim.ahead (h : sc.Sim t K ch like k n L e f k' n' W T T' E) (x : sp.Id) : e x ≤ f x + 1 := by
  cases hns : n'.node x with
  | none => have := (h.inv.idle _ hns).1; omega
  | some st =>
    cases st with
    | running s' a' => have := (h.inv.running _ _ _ hns).1; omega
    | done r => have := (h.inv.done _ _ hns).1; omega

/-- A message, of both networks, to another party. -/
theorem Sim.deliver_other (ok : sc.Ok) (dv : Deviation sc g t K ch like) (h : sc.Sim t K ch like k n L e f k' n' W T T' E)
    {p : Packet sp} {w w' : List (Packet sp)} (hw : n.wire = w ++ p :: w') (hp : p ∈ W) (hd : p.dest ≠ t)
    {st st1 : RunState P} {out : List (Message sp)} (hn : n.node p.dest = some st)
    (hstep : step st (.deliver p.src p.message) = some (st1, out)) :
    out = [] ∧ ∃ n1 W', sc.Sim t K ch like (k + 1) (Net.put ⟨n.node, w ++ w'⟩ p.dest st1 []) L e f (k' + 1) n1 W' T T' E := by
  have ho := h.other _ hd
  rw [hn] at ho
  generalize ho' : n'.node p.dest = o at ho
  have hp' : p ∈ n'.wire := h.wire'.mem_iff.2 (by simp [hp])
  obtain ⟨v, v', hv⟩ := List.append_of_mem hp'
  obtain ⟨hdp, u, hu, hsrc, hm, hnr⟩ := h.inv.wire p hp'
  cases ho with
  | @wait s a c hwt =>
    obtain ⟨-, hs, ha⟩ := h.inv.running _ s a ho'
    have hcf : ({ a with cached := c } : Accum P).canFinalize = a.canFinalize := rfl
    rcases ha.canFinalize with ⟨hc, -⟩ | ⟨hc, -⟩
    · simp [Manul.step, hcf, hc] at hstep
    obtain ⟨hwf, hne, hpos⟩ := h.inv.incoming ok ho' hu hsrc hnr
    have hau := hm.authentic
    rw [← hs.sid] at hau
    have hdue : ∀ {a1 : Accum P}, (∀ r, IsCached ({ a with cached := c } : Accum P) t r → IsCached a1 t r) →
        sc.Due f t K T p.dest (some (.running s { a with cached := c })) → sc.Due f t K T p.dest (some (.running s a1)) := by
      intro a1 ha1 hdue
      rcases hdue with h5 | ⟨s5, a5, h5, h6, h7⟩ | ⟨s5, a5, h5, h6⟩ | ⟨_, h5⟩
      · exact Or.inl h5
      · simp only [Option.some.injEq, RunState.running.injEq] at h5
        obtain ⟨rfl, rfl⟩ := h5
        exact Or.inr (Or.inl ⟨_, _, rfl, h6, ha1 _ h7⟩)
      · simp only [Option.some.injEq, RunState.running.injEq] at h5
        obtain ⟨rfl, rfl⟩ := h5
        obtain ⟨y, hy⟩ := BMap.contains_iff.1 h6
        simp only [ha.provable] at hy
        cases hy
      · cases h5
    rcases hpos with ⟨heq, hpay, hpr⟩ | ⟨hlt, heq, hnc, hdiff, hsim⟩
    · -- a message of this position
      subst heq
      obtain ⟨vv, hvv, -⟩ := receives ok.env.serMeta ok.coop h.inv.ledger hdp hsrc hs hm
      have hns : a.notSent.contains p.src = true := by rw [ha.notSent, hsrc, hpay]; rfl
      have hau' : Authentic p.src s.sessionId s.transition.id p.message.direct p.message.echo p.message.normal := by
        rw [hs.rid]; exact hau
      have hd1 := deliver_accepts ok.env.serMeta hwf (a := a) hau' hne hpr hpay hns hvv
      have hd2 := deliver_accepts ok.env.serMeta hwf (a := { a with cached := c }) hau' hne hpr hpay hns hvv
      simp only [Manul.step, hcf, hc, hd2, Option.some.injEq, Prod.mk.injEq] at hstep
      obtain ⟨rfl, rfl⟩ := hstep
      refine ⟨rfl, h.delivered ok hw hp ho' hc (by rw [hn]; simp) (fun _ _ hc => absurd hc hd) ?_ ?_⟩
      · intro a1 n1 h1 _ _ _ _
        rw [hd1] at h1
        cases h1
        exact .wait (c := c) hwt
      · intro _ hdd
        rw [hn] at hdd
        exact hdue (fun r hr => hr) hdd
    · -- a message of the next position
      subst heq
      have hnc2 : ¬ IsCached ({ a with cached := c } : Accum P) p.src (sc.idAt (sc.nxt (f p.dest) p.dest)) := by
        rintro ⟨en, vm, h1, h2⟩
        simp only at h1
        by_cases hpt : p.src = t
        · have hlow := h.early p hp hpt _ (by rw [← hpt]; exact hu) hm.roundId
          rw [hwt.low hlow] at h1
          exact hnc ⟨en, vm, h1, h2⟩
        · rw [hwt.off _ hpt] at h1
          exact hnc ⟨en, vm, h1, h2⟩
      have hd1 := deliver_keeps ok.env.serMeta hwf (a := a) (x := p.src) (m := p.message) hau hdiff hsim hne hnc
      have hd2 := deliver_keeps ok.env.serMeta hwf (a := { a with cached := c }) (x := p.src) (m := p.message) hau hdiff hsim hne hnc2
      simp only [Manul.step, hcf, hc, hd2, Option.some.injEq, Prod.mk.injEq] at hstep
      obtain ⟨rfl, rfl⟩ := hstep
      refine ⟨rfl, h.delivered ok hw hp ho' hc (by rw [hn]; simp) (fun _ _ hc => absurd hc hd) ?_ ?_⟩
      · intro a1 n1 h1 inv1 hn1 hun1 _
        rw [hd1] at h1
        cases h1
        by_cases hpt : p.src = t
        · have hlow := h.early p hp hpt _ (by rw [← hpt]; exact hu) hm.roundId
          have hcc := hwt.low hlow
          subst hcc
          exact .wait (Wait.refl ok inv1 hun1 h.late hn1)
        · have hne' : ∀ {cc : BMap sp.Id (BMap RoundId (VerifiedMessage sp))} {en},
              (cc.insert p.src en).get? t = cc.get? t := by
            intro cc en
            rw [BMap.get?_insert, if_neg (fun hc => hpt hc.symm)]
          have hsame : (c.get? p.src) = a.cached.get? p.src := hwt.off _ hpt
          refine .wait (a := { a with cached := a.cached.insert p.src (((a.cached.get? p.src).getD BMap.empty).insert
            (sc.idAt (sc.nxt (f p.dest) p.dest)) (verifiedOf p.src p.message)) })
            (c := c.insert p.src (((c.get? p.src).getD BMap.empty).insert
            (sc.idAt (sc.nxt (f p.dest) p.dest)) (verifiedOf p.src p.message))) ⟨?_, ?_, ?_, ?_, ?_⟩
          · intro x hx
            simp only [BMap.get?_insert, hsame, hwt.off x hx]
          · intro hl
            rw [hwt.low hl]
          · intro hq en r vm hen hvm
            rw [hne'] at hen
            exact hwt.bad hq en r vm hen hvm
          · intro en r vm hen hvm
            rw [hne'] at hen
            exact hwt.sent en r vm hen hvm
          · intro q hq hqd en vm hen
            rw [hne'] at hen
            exact hwt.fresh q hq hqd en vm hen
      · intro _ hdd
        rw [hn] at hdd
        refine hdue ?_ hdd
        rintro r ⟨en, vm, h1, h2⟩
        simp only at h1
        by_cases hpt : p.src = t
        · refine ⟨en.insert (sc.idAt (sc.nxt (f p.dest) p.dest)) (verifiedOf p.src p.message),
            if r = sc.idAt (sc.nxt (f p.dest) p.dest) then verifiedOf p.src p.message else vm, ?_, ?_⟩
          · simp only [hpt, BMap.get?_insert, if_true, h1, Option.getD_some]
          · simp only [BMap.get?_insert, h2]
            split <;> rfl
        · exact ⟨en, vm, by simp only [BMap.get?_insert, if_neg (fun hc : t = p.src => hpt hc.symm), h1], h2⟩
  | @ban s a' a hq hb =>
    obtain ⟨-, hs, ha⟩ := h.inv.running _ s a' ho'
    obtain ⟨h2, h3⟩ := h.not_finished dv hd ho' hq
    obtain ⟨hwf, hne, hpos⟩ := h.inv.incoming ok ho' hu hsrc hnr
    have hau := hm.authentic
    rw [← hs.sid] at hau
    have hlowu : f p.dest ≤ u := by
      rcases hpos with ⟨h4, -⟩ | ⟨h4, -⟩ <;> omega
    have hpt : p.src ≠ t := by
      intro hpt
      have := h.early p hp hpt u (by rw [← hpt]; exact hu) hm.roundId
      omega
    have heq : u = f p.dest := by
      have := h.ahead p.src
      have := h.below p.src hpt
      omega
    rcases hpos with ⟨-, hpay, hpr⟩ | ⟨hlt, -⟩
    rotate_left
    · omega
    subst heq
    rcases Ban.canFinalize hb ha h2 h3 with ⟨hc, -⟩ | ⟨hc, -⟩
    · simp [Manul.step, hc] at hstep
    have hc' : a'.canFinalize = .notYet := by
      rcases ha.canFinalize with ⟨-, hall⟩ | ⟨hc', -⟩
      · rw [hall, h2] at h3; cases h3
      · exact hc'
    obtain ⟨vv, hvv, -⟩ := receives ok.env.serMeta ok.coop h.inv.ledger hdp hsrc hs hm
    have hns : a'.notSent.contains p.src = true := by rw [ha.notSent, hsrc, hpay]; rfl
    obtain ⟨b', b, hd1, hd2, hb'⟩ := hb.accepts ok.env.serMeta hwf hpt (by rw [hs.rid]; exact hau) hne hpr hpay hns hvv
    simp only [Manul.step, hc, hd2, Option.some.injEq, Prod.mk.injEq] at hstep
    obtain ⟨rfl, rfl⟩ := hstep
    refine ⟨rfl, h.delivered ok hw hp ho' hc' (by rw [hn]; simp) (fun _ _ hc => absurd hc hd) ?_ ?_⟩
    · intro a1 n1 h1 _ _ _ _
      rw [hd1] at h1
      cases h1
      exact .ban hq hb'
    · intro _ _
      obtain ⟨ev, -, -, hev⟩ := hb'.provable
      exact Or.inr (Or.inr (Or.inl ⟨s, b, rfl, BMap.contains_iff.2 ⟨ev, by rw [hev, if_pos rfl]⟩⟩))
  | ended hq hb => simp [Manul.step] at hstep

theorem _root_.Manul.TwinMsg.dest {s : Session P} {x : SRound P} {same : Prop} {m m' : Message sp} (h : TwinMsg s x same m m') :
    m'.destination = m.destination := by
  obtain ⟨art, hm⟩ := h.made
  exact hm.destination

theorem forall₂_left {α β : Type} {R : α → β → Prop} {l : List α} {l' : List β} (h : List.Forall₂ R l l') :
    ∀ b ∈ l', ∃ a ∈ l, R a b := by
  induction h with
  | nil => simp
  | cons h1 _ ih =>
    intro b hb
    rcases List.mem_cons.1 hb with rfl | hb
    · exact ⟨_, List.mem_cons_self .., h1⟩
    · obtain ⟨a, h2, h3⟩ := ih b hb
      exact ⟨a, List.mem_cons_of_mem _ h2, h3⟩

theorem forall₂_right {α β : Type} {R : α → β → Prop} {l : List α} {l' : List β} (h : List.Forall₂ R l l') :
    ∀ a ∈ l, ∃ b ∈ l', R a b := by
  induction h with
  | nil => simp
  | cons h1 _ ih =>
    intro b hb
    rcases List.mem_cons.1 hb with rfl | hb
    · exact ⟨_, List.mem_cons_self .., h1⟩
    · obtain ⟨a, h2, h3⟩ := ih b hb
      exact ⟨a, List.mem_cons_of_mem _ h2, h3⟩

theorem forall₂_eq {α : Type} {R : α → α → Prop} {l l' : List α} (h : List.Forall₂ R l l') (hR : ∀ a b, R a b → b = a) : l' = l := by
  induction h with
  | nil => rfl
  | cons h1 _ ih => rw [ih, hR _ _ h1]

theorem forall₂_map {α β γ : Type} {R : α → β → Prop} {l : List α} {l' : List β} (h : List.Forall₂ R l l') {F : α → γ}
    {G : β → γ} (hR : ∀ a b, R a b → G b = F a) : l'.map G = l.map F := by
  induction h with
  | nil => rfl
  | cons h1 _ ih => simp only [List.map_cons, ih, hR _ _ h1]

theorem made_authentic (ok : sc.Ok) {s : Session P} {x : SRound P} {d : sp.Id} {m : Message sp} {art : ProcessedArtifact P}
    (hm : Made { s with round := x } d m art) : AuthenticPart (sp.verifyingKey s.signer) s.sessionId s.transition.id m.direct := by
  obtain ⟨rng, hr⟩ := hm.signed
  exact signed_valid ok.sign ok.srt hr

/-- Both networks: the deviating party enters a position. -/
theorem Sim.selfProgress (ok : sc.Ok) (dv : Deviation sc g t K ch like) (h : sc.Sim t K ch like k n L e f k' n' W T T' E)
    {q : Nat} (heq : e t ≤ q) (hq : e t ≤ 2 * K → 2 * K ≤ q → q = 2 * K) {s : Session P} {a : Accum P} {x : SRound P}
    {out out' : List (Message sp)} (hL : L.Ext L')
    (inv' : sc.NetInv L' (Function.update e t (q + 1)) (Function.update f t q) (n'.put t (.running s a) out))
    (tk : NetTakes sc.g (k' + 1) (n'.put t (.running s a) out)) (htw : TwinR like (spot q).1 s.round x)
    (hout : List.Forall₂ (TwinMsg s x ((spot q).1 < K ∨ ∃ e, s.round = .echo e)) out out') :
    ∃ W1 T1 T1', sc.Sim t K ch like (k + 1) (n.put t (.running { s with round := x } a) out') L' (Function.update e t (q + 1))
      (Function.update f t q) (k' + 1) (n'.put t (.running s a) out) W1 T1 T1' E := by
  have het : Function.update e t (q + 1) t = q + 1 := Function.update_self ..
  have hele : e t ≤ Function.update e t (q + 1) t := by rw [het]; omega
  obtain ⟨-, hs, -⟩ := inv'.running t s a put_at
  rw [Function.update_self] at hs
  -- nobody has received anything more
  have hun : ∀ i u, sc.g.parties.contains i = true → 2 * K ≤ u → (sc.xAt u i).contains t = true →
      ¬ sc.Recv (n'.put t (.running s a) out) (Function.update f t q) i t u := by
    intro i u hi hu hx hr
    by_cases hit : i = t
    · subst hit
      have hsent := inv'.recv_sent hi hx hr
      exact (others_contains.1 (ok.coop.pattern.others_at (inv'.entered hsent) hi (Or.inr hx))).1 rfl
    · refine h.unheard i u hi hu hx ?_
      unfold Recv at hr ⊢
      rwa [put_ne hit, Function.update_of_ne hit] at hr
  have hlate : ∀ p ∈ T, ∃ u, sc.Late L' (Function.update e t (q + 1)) t K like p u := by
    intro p hp
    obtain ⟨u, hu⟩ := h.late p hp
    exact ⟨u, hu.mono hL hele⟩
  have hheld : ∀ p ∈ T', p.src = t ∧ ∃ u, u < Function.update e t (q + 1) t ∧ 2 * K ≤ u ∧ p.rid = sc.idAt u := by
    intro p hp
    obtain ⟨h1, u, h2, h3⟩ := h.held p hp
    exact ⟨h1, u, lt_of_lt_of_le h2 hele, h3⟩
  -- messages in transit were sent before
  have hold : ∀ p ∈ W, p.src = t → ∃ u, u < e t ∧ p.rid = sc.idAt u := by
    intro p hp hsrc
    obtain ⟨-, u, h1, -, h2, -⟩ := h.inv.wire p (h.wire'.mem_iff.2 (List.mem_append_left _ hp))
    rw [hsrc] at h1
    exact ⟨u, h1, h2.roundId⟩
  have hnotend : ∀ j ∈ E, sc.g.parties.contains j = true ∧ j ≠ t ∧
      ∃ r, (n.put t (.running { s with round := x } a) out').node j = some (.done r) := by
    intro j hj
    obtain ⟨h1, h2, r, h3⟩ := h.ended.2 j hj
    exact ⟨h1, h2, r, by rw [put_ne h2]; exact h3⟩
  have hbelow : ∀ i, i ≠ t → Function.update f t q i ≤ 2 * K := by
    intro i hi
    rw [Function.update_of_ne hi]
    exact h.below i hi
  have hself : Self like (Function.update f t q t) ((n'.put t (.running s a) out).node t)
      ((n.put t (.running { s with round := x } a) out').node t) := by
    rw [put_at, put_at, Function.update_self]
    exact .running htw
  rcases Nat.lt_or_ge q (2 * K) with hlt | hge
  · -- the messages are the same
    have hsame : out' = out := forall₂_eq hout (fun m m' hm => hm.same (Or.inl (spot_lt.2 hlt)))
    subst hsame
    refine ⟨W ++ out'.map (fun m => (⟨t, m.destination, m⟩ : Packet sp)), T, T', tk, inv', perm_out h.wire, perm_out h.wire',
      hbelow, ?_, hun, hlate, hheld, h.nodup, hself, ?_, ?_, ⟨h.ended.1, hnotend⟩, ?_⟩
    · intro p _ _ u hu _
      rw [het] at hu
      omega
    · intro j hj
      rw [put_ne hj, put_ne hj, Function.update_of_ne hj]
      exact (h.other j hj).mono hL hele (fun p hp => Or.inl hp)
    · intro j hj hjt hlt2
      rw [het] at hlt2
      omega
    · have := h.count
      omega
  · -- the messages are not delivered in the other network
    have hrid : ∀ m' ∈ out', m'.direct.metadata.roundId = sc.idAt q := by
      intro m' hm'
      obtain ⟨m, -, h2⟩ := forall₂_left hout m' hm'
      obtain ⟨art, h3⟩ := h2.made
      rw [(made_authentic ok h3).1, hs.rid]
    have hrid0 : ∀ m ∈ out, m.direct.metadata.roundId = sc.idAt q := by
      intro m hm
      obtain ⟨m', -, h2⟩ := forall₂_right hout m hm
      obtain ⟨art, h3⟩ := h2.orig
      rw [(made_authentic ok (s := s) (x := s.round) h3).1, hs.rid]
    have hnewid : ∀ u, u < e t → sc.idAt q ≠ sc.idAt u := by
      intro u hu hc
      have := inv'.ids ok (j := t) (t := q) (t' := u) (by rw [het]; omega) (by rw [het]; omega) hc
      omega
    have hpk : ∀ m ∈ out, sc.g.parties.contains m.destination = true ∧ (sc.xAt q m.destination).contains t = true ∧
        sc.MsgAt L' t m.destination q m := by
      intro m hm
      obtain ⟨g1, u, g2, g3, g4, -⟩ := inv'.wire ⟨t, m.destination, m⟩ (List.mem_append_right _ (List.mem_map.2 ⟨m, hm, rfl⟩))
      have : u = q := by
        refine inv'.ids ok (j := t) g2 (by rw [het]; omega) ?_
        rw [← hrid0 m hm]
        exact g4.roundId.symm
      subst this
      exact ⟨g1, g3, g4⟩
    have hnew : ∀ p ∈ out'.map (fun m => (⟨t, m.destination, m⟩ : Packet sp)), sc.Late L' (Function.update e t (q + 1)) t K like p q := by
      intro p hp
      obtain ⟨m', hm', rfl⟩ := List.mem_map.1 hp
      obtain ⟨m, hm, h2⟩ := forall₂_left hout m' hm'
      obtain ⟨g1, g2, g3⟩ := hpk m hm
      obtain ⟨art, h3⟩ := h2.made
      obtain ⟨art0, h4⟩ := h2.orig
      have hd := h2.dest
      have hau := made_authentic ok h3
      rw [hs.signer, ok.keys t dv.party, hs.sid, hs.rid] at hau
      refine ⟨rfl, by rw [hd]; exact g1, hge, by rw [het]; omega, by rw [hd]; exact g2, ⟨hau, ?_, ?_⟩, ?_⟩
      · have := g3.authentic.2.1
        rw [h4.echo] at this
        rw [h3.echo]
        exact this
      · have := g3.authentic.2.2
        rw [h4.normal] at this
        rw [h3.normal]
        exact this
      · intro hqK
        obtain ⟨c, k1, k2, -, k4, k5⟩ := hs.round.main K (spot_main.2 hqK)
        rw [k2, spot_main.2 hqK] at htw
        generalize hr : (SRound.main c.rd : SRound P) = y at htw
        cases htw with
        | @main r r' hl =>
          cases hr
          obtain ⟨rng, h5⟩ := h3.direct
          simp only [SRound.makeDirect] at h5
          cases h6 : P.makeDirect r' rng m.destination with
          | error err => rw [h6] at h5; cases h5
          | ok z =>
            obtain ⟨p0, b⟩ := z
            rw [h6] at h5
            simp only [Except.ok.injEq, Prod.mk.injEq] at h5
            refine ⟨c, r', rng, b, k1, ?_, ?_, hl, ?_⟩
            · rw [h3.echo]; exact k4
            · rw [h3.normal]; exact k5
            · simp only [hd]
              rw [h6, h5.1]
        | echo _ => cases hr
    refine ⟨W, T ++ out'.map (fun m => (⟨t, m.destination, m⟩ : Packet sp)), T' ++ out.map (fun m => (⟨t, m.destination, m⟩ : Packet sp)),
      tk, inv', perm_out' h.wire, perm_out' h.wire', hbelow, ?_, hun, ?_, ?_, ?_, hself, ?_, ?_, ⟨h.ended.1, hnotend⟩, ?_⟩
    · intro p hp hsrc u hu hr
      obtain ⟨u0, h1, h2⟩ := hold p hp hsrc
      have : u = u0 := inv'.ids ok (j := t) hu (by rw [het]; omega) (by rw [← hr, h2])
      subst this
      exact h.early p hp hsrc u h1 h2
    · intro p hp
      rcases List.mem_append.1 hp with hp | hp
      · exact hlate p hp
      · exact ⟨q, hnew p hp⟩
    · intro p hp
      rcases List.mem_append.1 hp with hp | hp
      · exact hheld p hp
      · obtain ⟨m, hm, rfl⟩ := List.mem_map.1 hp
        exact ⟨rfl, q, by rw [het]; omega, hge, hrid0 m hm⟩
    · rw [List.map_append, List.nodup_append]
      refine ⟨h.nodup, ?_, ?_⟩
      · have h1 := inv'.nodup
        simp only [Net.put, List.map_append, List.nodup_append] at h1
        have h2 := h1.2.1
        have h3 : (out'.map (fun m => (⟨t, m.destination, m⟩ : Packet sp))).map (fun p => (p.dest, p.rid)) =
            out.map (fun m => (m.destination, sc.idAt q)) := by
          rw [List.map_map]
          have : out'.map (fun m' => (m'.destination, sc.idAt q)) = out.map (fun m => (m.destination, sc.idAt q)) :=
            forall₂_map hout (fun m m' hm => by rw [hm.dest])
          rw [← this]
          refine List.map_congr_left ?_
          intro m' hm'
          simp only [Function.comp, Packet.rid, hrid m' hm']
        rw [h3]
        have h4 : (out.map (fun m => (⟨t, m.destination, m⟩ : Packet sp))).map (fun p => (p.src, p.dest, p.message.direct.metadata.roundId)) =
            (out.map (fun m => (m.destination, sc.idAt q))).map (fun z => (t, z)) := by
          rw [List.map_map, List.map_map]
          refine List.map_congr_left ?_
          intro m hm
          simp only [Function.comp, hrid0 m hm]
        rw [h4] at h2
        exact h2.of_map _
      · intro z hz z' hz' hzz
        subst hzz
        obtain ⟨p, hp, rfl⟩ := List.mem_map.1 hz
        obtain ⟨p', hp', h1⟩ := List.mem_map.1 hz'
        obtain ⟨u, hu⟩ := h.late p hp
        have h2 := (hnew p' hp').rid
        simp only [Prod.mk.injEq] at h1
        rw [h1.2, hu.rid] at h2
        exact hnewid u hu.sent h2.symm
    · intro j hj
      rw [put_ne hj, put_ne hj, Function.update_of_ne hj]
      refine (h.other j hj).mono hL hele ?_
      intro p hp
      rcases List.mem_append.1 hp with hp | hp
      · exact Or.inl hp
      · right
        intro u hu
        rw [(hnew p hp).rid]
        exact hnewid u hu
    · intro j hj hjt _
      rw [put_ne hjt]
      rcases Nat.lt_or_ge (2 * K) (e t) with h1 | h1
      · exact (h.due j hj hjt h1).congr (Function.update_of_ne hjt _ _) (fun p hp => List.mem_append_left _ hp)
      · have hqK := hq h1 hge
        have hx : (sc.xAt q j).contains t = true := by
          rw [hqK, xAt_main (spot_main.2 rfl)]
          exact dv.expected j hj hjt
        obtain ⟨p, hp, h2, h3, h4⟩ := inv'.sent j t q hj hx (by rw [het]; omega) (hun j q hj hge hx)
        rcases List.mem_append.1 hp with hp | hp
        · exfalso
          obtain ⟨-, u, g1, -, g2, -⟩ := h.inv.wire p hp
          rw [h2] at g1
          exact hnewid u g1 (by rw [← h4.roundId, g2.roundId])
        · obtain ⟨m, hm, rfl⟩ := List.mem_map.1 hp
          obtain ⟨m', hm', h5⟩ := forall₂_right hout m hm
          refine Or.inl ⟨⟨t, m'.destination, m'⟩, List.mem_append_right _ (List.mem_map.2 ⟨m', hm', rfl⟩), ?_, ?_⟩
          · rw [← h3]
            exact h5.dest
          · rw [← hqK]
            exact hrid m' hm'
    · have := h.count
      have hl := hout.length_eq
      simp only [List.length_append, List.length_map]
      omega

/-- How the deviating party starts. -/
theorem start_self (ok : sc.Ok) (dv : Deviation sc g t K ch like) {rng rng' : sp.Rng} {s : Session P} {a : Accum P}
    {out : List (Message sp)} (h1 : sc.g.startNode t rng rng' = (.running s a, out)) :
    ∃ x out', g.startNode t rng rng' = (.running { s with round := x } a, out') ∧ TwinR like (spot 0).1 s.round x ∧
      List.Forall₂ (TwinMsg s x ((spot 0).1 < K ∨ ∃ e, s.round = .echo e)) out out' := by
  unfold Group.startNode Session.new at h1
  rw [ok.keys t dv.party] at h1
  cases hr : (sc.g.ep t).makeRound (sp.fork rng 0) sc.g.sid t with
  | error err => rw [hr] at h1; simp at h1
  | ok r =>
    obtain ⟨r', hr', hl⟩ := dv.start _ r hr
    rw [hr] at h1
    simp only at h1
    cases hs : Session.newForNextRound (sp.fork rng 1) sc.g.sid (sc.g.signer t) (.main r) Transcript.new with
    | error err => rw [hs] at h1; simp at h1
    | ok s1 =>
      obtain ⟨hs', hrd⟩ := dv.twin_new (TwinR.main hl) hs
      rw [hs] at h1
      simp only [Manul.start, enterRound] at h1
      cases hst : startRound s1 rng' [] with
      | error err => rw [hst] at h1; simp at h1
      | ok z =>
        obtain ⟨a1, out1⟩ := z
        rw [hst] at h1
        simp only [Prod.mk.injEq, RunState.running.injEq] at h1
        obtain ⟨⟨rfl, rfl⟩, rfl⟩ := h1
        have htw : TwinR like (spot 0).1 s1.round (.main r') := by
          rw [hrd]
          exact TwinR.main hl
        obtain ⟨out', ho', hf⟩ := dv.twin_startRound ok.env htw hst
        refine ⟨.main r', out', ?_, htw, hf⟩
        unfold Group.startNode Session.new
        rw [dv.sid, dv.signer, ok.keys t dv.party]
        simp only [hr', hs', Manul.start, enterRound, ho']

/-- The deviating party starts. -/
theorem Sim.starts_self (ok : sc.Ok) (dv : Deviation sc g t K ch like) (h : sc.Sim t K ch like k n L e f k' n' W T T' E)
    (hn : n.node t = none) (rng rng' : sp.Rng) :
    ∃ L' e' f' n1 W' T1 T1' st out, g.startNode t rng rng' = (st, out) ∧
      sc.Sim t K ch like (k + 1) (n.put t st out) L' e' f' (k' + 1) n1 W' T1 T1' E := by
  have hn' : n'.node t = none := by
    have := h.self
    rw [hn] at this
    generalize ho : n'.node t = o at this
    cases this with
    | idle => rfl
  obtain ⟨L', s, a, out, h1, h2, h3, h4⟩ := h.inv.starts ok dv.party hn' rng rng'
  have tk : NetTakes sc.g (k' + 1) (n'.put t (.running s a) out) := by
    have := NetTakes.step h.takes (.start rng rng' dv.party hn')
    rw [h1] at this
    exact this
  have het := (h.inv.idle t hn').1
  obtain ⟨x, out', h5, htw, hf⟩ := start_self ok dv h1
  obtain ⟨W1, T1, T1', hsim⟩ := h.selfProgress ok dv (q := 0) (by omega) (by intro _ _; omega) h3 h4 tk htw hf
  exact ⟨L', _, _, _, W1, T1, T1', _, out', h5, hsim⟩

/-- The deviating party goes on. -/
theorem Sim.ticks_self (ok : sc.Ok) (dv : Deviation sc g t K ch like) (h : sc.Sim t K ch like k n L e f k' n' W T T' E)
    {st st1 : RunState P} {rng : sp.Rng} {out : List (Message sp)} (hn : n.node t = some st)
    (hstep : step st (.tick rng) = some (st1, out)) :
    ∃ L' e' f' n1 W' T1 T1', sc.Sim t K ch like (k + 1) (n.put t st1 out) L' e' f' (k' + 1) n1 W' T1 T1' E := by
  have ho := h.self
  rw [hn] at ho
  generalize ho' : n'.node t = o at ho
  cases ho with
  | done _ _ => simp [Manul.step] at hstep
  | @running s x a htw =>
    obtain ⟨hef, hs, ha⟩ := h.inv.running t s a ho'
    rcases ha.canFinalize with ⟨hc, hall⟩ | ⟨hc, -⟩
    rotate_left
    · simp [Manul.step, hc] at hstep
    simp only [Manul.step, hc, Option.some.injEq] at hstep
    have hact : sc.Active (2 * K) t := by
      intro k hk
      rw [spot_echo] at hk
      omega
    have hK := dv.stage
    have hlt := lt_nxt (sc := sc) (f t) t
    have hidx : (if s.echoInfo.isSome then (spot (f t)).1 else (spot (f t)).1 + 1) = (spot (sc.nxt (f t) t)).1 := by
      rw [hs.echoInfo]
      cases hb : (spot (sc.nxt (f t) t)).2 with
      | false => rw [after hb]; rfl
      | true =>
        cases hq : spot (f t) with
        | mk l b =>
          cases b with
          | true =>
            simp only [nxt, hq] at hb
            rw [spot_main.2 (show 2 * l + 2 = 2 * (l + 1) by omega)] at hb
            cases hb
          | false =>
            simp only [nxt, hq] at hb ⊢
            split at hb
            · rename_i hr
              rw [if_pos hr, spot_echo.2 (show 2 * l + 1 = 2 * l + 1 from rfl)]
              rfl
            · rw [spot_main.2 (show 2 * l + 2 = 2 * (l + 1) by omega)] at hb
              cases hb
    rcases h.inv.ticks ok ho' rng hc with ⟨L', s1, a1, out1, h1, -, h3, h4⟩ | ⟨r, h1, h2, h4⟩
    · have tk : NetTakes sc.g (k' + 1) (n'.put t (.running s1 a1) out1) :=
        .step h.takes (.tick (rng := rng) ho' (by simp only [Manul.step, hc, h1]))
      unfold finishRound at h1 hstep
      cases hfin : s.finalizeRound (sp.fork rng 0) a with
      | error err => rw [hfin] at h1; simp at h1
      | ok outc =>
        obtain ⟨o', ho2, hto⟩ := dv.twin_finalizeRound htw hfin
        rw [hfin] at h1
        rw [ho2] at hstep
        rw [hidx] at hto
        cases hto with
        | finished _ _ => simp at h1
        | @anotherRound s2 x2 cs htw2 =>
          simp only [enterRound] at h1 hstep
          cases hst : startRound s2 (sp.fork rng 1) cs with
          | error err => rw [hst] at h1; simp at h1
          | ok z =>
            obtain ⟨a2, out2⟩ := z
            rw [hst] at h1
            simp only [Prod.mk.injEq, RunState.running.injEq] at h1
            obtain ⟨⟨rfl, rfl⟩, rfl⟩ := h1
            obtain ⟨out', ho3, hf⟩ := dv.twin_startRound ok.env htw2 hst
            rw [ho3] at hstep
            simp only [Prod.mk.injEq] at hstep
            obtain ⟨rfl, rfl⟩ := hstep
            obtain ⟨W1, T1, T1', hsim⟩ := h.selfProgress ok dv (q := sc.nxt (f t) t) (by omega)
              (by
                intro h5 h6
                have := nxt_le hact (show f t < 2 * K by omega)
                omega) h3 h4 tk htw2 hf
            exact ⟨L', _, _, _, W1, T1, T1', hsim⟩
    · -- it ends
      have tk : NetTakes sc.g (k' + 1) (n'.put t (.done r) []) :=
        .step h.takes (.tick (rng := rng) ho' (by simp only [Manul.step, hc, h1]))
      have hfge : 2 * K ≤ f t := by
        by_contra hcc
        have := nxt_le hact (show f t < 2 * K by omega)
        omega
      have hend : ∃ rep rep', r = .ok rep ∧ st1 = .done (.ok rep') ∧ out = [] ∧ rep'.provable = rep.provable ∧
          rep'.unprovable = rep.unprovable := by
        obtain ⟨-, -, ⟨rep, v, hrep, -⟩, -⟩ := h4.done t r put_at
        subst hrep
        unfold finishRound at h1 hstep
        cases hfin : s.finalizeRound (sp.fork rng 0) a with
        | error err => rw [hfin] at h1; simp at h1
        | ok outc =>
          obtain ⟨o', ho2, hto⟩ := dv.twin_finalizeRound htw hfin
          rw [hfin] at h1
          rw [ho2] at hstep
          cases hto with
          | @finished r0 r0' g1 g2 =>
            simp only [Prod.mk.injEq, RunState.done.injEq, Except.ok.injEq, and_true] at h1 hstep
            obtain ⟨rfl, rfl⟩ := hstep
            subst h1
            exact ⟨r0, r0', rfl, rfl, rfl, g1, g2⟩
          | @anotherRound s2 x2 cs htw2 =>
            simp only [enterRound] at h1
            split at h1 <;> simp at h1
      obtain ⟨rep, rep', rfl, rfl, rfl, g1, g2⟩ := hend
      have het : Function.update e t (2 * sc.n) t = 2 * sc.n := Function.update_self ..
      have hele : e t ≤ Function.update e t (2 * sc.n) t := by rw [het]; omega
      refine ⟨L, _, _, _, W, T, T', tk, h4, by simpa [Net.put] using h.wire, by simpa [Net.put] using h.wire', ?_, ?_, ?_, ?_, ?_, h.nodup,
        ?_, ?_, ?_, ⟨h.ended.1, ?_⟩, ?_⟩
      · intro i hi
        rw [Function.update_of_ne hi]
        exact h.below i hi
      · intro p hp hsrc u hu hr
        rw [het] at hu
        obtain ⟨-, u0, k1, -, k2, -⟩ := h.inv.wire p (h.wire'.mem_iff.2 (List.mem_append_left _ hp))
        rw [hsrc] at k1
        have : u = u0 := h4.ids ok (j := t) (by rw [het]; exact hu) (by omega) (by rw [← hr, ← k2.roundId])
        subst this
        exact h.early p hp hsrc u k1 hr
      · intro i u hi hu hx hr
        by_cases hit : i = t
        · subst hit
          have hsent := h4.recv_sent hi hx hr
          exact (others_contains.1 (ok.coop.pattern.others_at (h4.entered hsent) hi (Or.inr hx))).1 rfl
        · refine h.unheard i u hi hu hx ?_
          unfold Recv at hr ⊢
          rwa [put_ne hit, Function.update_of_ne hit] at hr
      · intro p hp
        obtain ⟨u, hu⟩ := h.late p hp
        exact ⟨u, hu.mono (fun _ _ _ hc => hc) hele⟩
      · intro p hp
        obtain ⟨h1, u, h2, h3⟩ := h.held p hp
        exact ⟨h1, u, lt_of_lt_of_le h2 hele, h3⟩
      · rw [put_at, put_at]
        exact .done g1 g2
      · intro j hj
        rw [put_ne hj, put_ne hj, Function.update_of_ne hj]
        exact (h.other j hj).mono (fun _ _ _ hc => hc) hele (fun p hp => Or.inl hp)
      · intro j hj hjt _
        rw [put_ne hjt]
        exact (h.due j hj hjt (by omega)).congr (Function.update_of_ne hjt _ _) (fun p hp => hp)
      · intro j hj
        obtain ⟨k1, k2, r, k3⟩ := h.ended.2 j hj
        exact ⟨k1, k2, r, by rw [put_ne k2]; exact k3⟩
      · have := h.count
        omega

/-- The network: a message of the deviating party is delivered. -/
theorem Sim.lateStep (h : sc.Sim t K ch like k n L e f k' n' W T T' E) {p : Packet sp} {w w' : List (Packet sp)}
    (hw : n.wire = w ++ p :: w') {b b' : List (Packet sp)} (hT : T = b ++ p :: b') (hd : p.dest ≠ t) {st : RunState P}
    (hnd : ∀ r, n.node p.dest ≠ some (.done r))
    (hoth : sc.Other L e t K ch like (b ++ b') p.dest (f p.dest) (n'.node p.dest) (some st))
    (hdue : sc.Due f t K (b ++ b') p.dest (some st)) :
    sc.Sim t K ch like (k + 1) (Net.put ⟨n.node, w ++ w'⟩ p.dest st []) L e f k' n' W (b ++ b') T' E := by
  have hsub : ∀ q ∈ b ++ b', q ∈ T := by
    intro q hq
    rw [hT]
    simp only [List.mem_append, List.mem_cons] at hq ⊢
    tauto
  have hwire : (w ++ w').Perm ((W ++ b) ++ b') := by
    refine perm_drop (p := p) ?_
    rw [← hw]
    have := h.wire
    rw [hT] at this
    simpa using this
  have hne : ∀ {j : sp.Id} (_ : j ≠ p.dest), (Net.put ⟨n.node, w ++ w'⟩ p.dest st []).node j = n.node j := by
    intro j hj
    exact put_ne hj
  refine ⟨h.takes, h.inv, by simpa [Net.put] using hwire, h.wire', h.below, h.early, h.unheard, fun q hq => h.late q (hsub q hq), h.held, ?_, ?_, ?_, ?_, ?_, ?_⟩
  · have := h.nodup
    rw [hT, List.map_append, List.map_cons] at this
    rw [List.map_append]
    exact (List.nodup_middle.1 this).of_cons
  · rw [hne (fun hc => hd hc.symm)]
    exact h.self
  · intro j hj
    by_cases hji : j = p.dest
    · subst hji
      rw [put_at]
      exact hoth
    · rw [hne hji]
      exact (h.other j hj).mono (fun _ _ _ hc => hc) (Nat.le_refl _) (fun q hq => Or.inl (hsub q hq))
  · intro j hj hjt hlt
    by_cases hji : j = p.dest
    · subst hji
      rw [put_at]
      exact hdue
    · rw [hne hji]
      rcases h.due j hj hjt hlt with ⟨q, hq, h1, h2⟩ | h1 | h1 | h1
      · refine Or.inl ⟨q, ?_, h1, h2⟩
        rw [hT] at hq
        simp only [List.mem_append, List.mem_cons] at hq ⊢
        rcases hq with hq | rfl | hq
        · exact Or.inl hq
        · exact absurd h1.symm hji
        · exact Or.inr hq
      · exact Or.inr (Or.inl h1)
      · exact Or.inr (Or.inr (Or.inl h1))
      · exact Or.inr (Or.inr (Or.inr h1))
  · refine ⟨h.ended.1, ?_⟩
    intro j hj
    obtain ⟨h3, h4, r, h5⟩ := h.ended.2 j hj
    have hji : j ≠ p.dest := by
      rintro rfl
      exact hnd r h5
    exact ⟨h3, h4, r, by rw [hne hji]; exact h5⟩
  · have := h.count
    rw [hT] at this
    simp only [List.length_append, List.length_cons] at this ⊢
    omega

/-- A message of the deviating party. -/
theorem Sim.deliver_late (ok : sc.Ok) (dv : Deviation sc g t K ch like) (h : sc.Sim t K ch like k n L e f k' n' W T T' E)
    {p : Packet sp} {w w' : List (Packet sp)} (hw : n.wire = w ++ p :: w') (hp : p ∈ T)
    {st st1 : RunState P} {out : List (Message sp)} (hn : n.node p.dest = some st)
    (hstep : step st (.deliver p.src p.message) = some (st1, out)) :
    out = [] ∧ ∃ T1, sc.Sim t K ch like (k + 1) (Net.put ⟨n.node, w ++ w'⟩ p.dest st1 []) L e f k' n' W T1 T' E := by
  obtain ⟨u, hl⟩ := h.late p hp
  have hst := h.inv.entered hl.sent
  have hd : p.dest ≠ t := fun hc =>
    (others_contains.1 (ok.coop.pattern.others_at hst hl.party (Or.inr hl.expected))).1 hc.symm
  obtain ⟨b, b', hT⟩ := List.append_of_mem hp
  have hlt : 2 * K < e t := lt_of_le_of_lt hl.low hl.sent
  have ho := h.other _ hd
  rw [hn] at ho
  generalize ho' : n'.node p.dest = o at ho
  have hnr := h.unheard p.dest u hl.party hl.low hl.expected
  cases ho with
  | @wait s a c hwt =>
    obtain ⟨-, hs, ha⟩ := h.inv.running _ s a ho'
    have hcf : ({ a with cached := c } : Accum P).canFinalize = a.canFinalize := rfl
    rcases ha.canFinalize with ⟨hc, -⟩ | ⟨hc, -⟩
    · simp [Manul.step, hcf, hc] at hstep
    obtain ⟨hwf, hne, hpos⟩ := h.inv.incoming ok (p := p) ho' (by rw [hl.src]; exact hl.sent) (by rw [hl.src]; exact hl.expected)
      (by rw [hl.src]; exact hnr)
    rw [hl.src] at hne hpos hstep
    have hau := hl.authentic
    rw [← hs.sid] at hau
    rcases hpos with ⟨heq, hpay, hpr⟩ | ⟨hlt2, heq, -, hdiff, hsim⟩
    · -- of this position
      have hK : u = 2 * K := by have := h.below _ hd; have := hl.low; omega
      obtain ⟨err, hr1, hr2⟩ := rejects ok dv h.inv hd ho' (by omega) (hl.bad hK)
      have hns : a.notSent.contains t = true := by
        rw [ha.notSent, ← heq, hl.expected, hpay]; rfl
      have hx : s.comm.expecting.contains t = true := by
        rw [hs.comm, ← heq]; exact hl.expected
      obtain ⟨a1, hd1, hb⟩ := deliver_rejects ok.env.serMeta hwf (a := { a with cached := c }) (by rw [hs.rid, ← heq]; exact hau) hne
        hpr hpay hns ha.provable hr1 hr2 (Sim.evidence ok dv h.takes h.inv hd ho' (by omega)) hx
      simp only [Manul.step, hcf, hc, hd1, Option.some.injEq, Prod.mk.injEq] at hstep
      obtain ⟨rfl, rfl⟩ := hstep
      have hb' : Ban ch t a a1 := ⟨hb.expecting, hb.payloads, hb.unprovable, hb.notSent, hb.provable, hb.processing⟩
      refine ⟨rfl, b ++ b', h.lateStep hw hT hd (by rw [hn]; simp) ?_ ?_⟩
      · rw [ho']
        exact .ban (by omega) hb'
      · obtain ⟨ev, -, -, hev⟩ := hb'.provable
        exact Or.inr (Or.inr (Or.inl ⟨s, a1, rfl, BMap.contains_iff.2 ⟨ev, by rw [hev, if_pos rfl]⟩⟩))
    · -- of the next position
      have hnc : ¬ IsCached ({ a with cached := c } : Accum P) t (sc.idAt u) := by
        rintro ⟨en, vm, h1, h2⟩
        refine hwt.fresh p hp rfl en vm h1 ?_
        rw [hl.rid]
        exact h2
      have hd1 := deliver_keeps ok.env.serMeta hwf (a := { a with cached := c }) (x := t) (m := p.message) hau hdiff hsim hne hnc
      simp only [Manul.step, hcf, hc, hd1, Option.some.injEq, Prod.mk.injEq] at hstep
      obtain ⟨rfl, rfl⟩ := hstep
      have hget : ∀ en, (c.insert t (((c.get? t).getD BMap.empty).insert (sc.idAt u) (verifiedOf t p.message))).get? t = some en →
          en = ((c.get? t).getD BMap.empty).insert (sc.idAt u) (verifiedOf t p.message) := by
        intro en hen
        rw [BMap.get?_insert, if_pos rfl] at hen
        exact (Option.some.inj hen).symm
      have hcase : ∀ r vm, (((c.get? t).getD BMap.empty).insert (sc.idAt u) (verifiedOf t p.message)).get? r = some vm →
          (r = sc.idAt u ∧ vm = verifiedOf t p.message) ∨ ∃ en, c.get? t = some en ∧ en.get? r = some vm := by
        intro r vm hr
        rw [BMap.get?_insert] at hr
        split at hr
        · rename_i hc
          exact Or.inl ⟨hc, (Option.some.inj hr).symm⟩
        · right
          cases hct : c.get? t with
          | none => rw [hct] at hr; simp at hr
          | some en => rw [hct] at hr; exact ⟨en, rfl, hr⟩
      refine ⟨rfl, b ++ b', h.lateStep hw hT hd (by rw [hn]; simp) ?_ ?_⟩
      · rw [ho']
        refine .wait (a := a) (c := c.insert t (((c.get? t).getD BMap.empty).insert (sc.idAt u) (verifiedOf t p.message))) ⟨?_, ?_, ?_, ?_, ?_⟩
        · intro x hx
          rw [BMap.get?_insert, if_neg hx]
          exact hwt.off x hx
        · intro hc
          have := hl.low
          omega
        · intro hq en r vm hen hvm
          rw [hget en hen] at hvm
          rcases hcase r vm hvm with ⟨rfl, rfl⟩ | ⟨en', h1, h2⟩
          · have hK : u = 2 * K := by omega
            refine ⟨by rw [hK], p.message, rfl, ?_, hl.bad hK⟩
            rw [← hK]
            exact hl.authentic
          · exact hwt.bad hq en' r vm h1 h2
        · intro en r vm hen hvm
          rw [hget en hen] at hvm
          rcases hcase r vm hvm with ⟨rfl, rfl⟩ | ⟨en', h1, h2⟩
          · exact ⟨u, hl.sent, rfl⟩
          · exact hwt.sent en' r vm h1 h2
        · intro q hq hqd en vm hen hvm
          rw [hget en hen] at hvm
          have hqT : q ∈ T := by
            rw [hT]
            simp only [List.mem_append, List.mem_cons] at hq ⊢
            tauto
          rcases hcase _ vm hvm with ⟨h1, rfl⟩ | ⟨en', h1, h2⟩
          · have hnd := h.nodup
            rw [hT, List.map_append, List.map_cons] at hnd
            have := (List.nodup_cons.1 (List.nodup_middle.1 hnd)).1
            rw [← List.map_append] at this
            refine this (List.mem_map.2 ⟨q, hq, ?_⟩)
            rw [hqd, h1, hl.rid]
          · exact hwt.fresh q hqT hqd en' vm h1 h2
      · by_cases hK : u = 2 * K
        · refine Or.inr (Or.inl ⟨s, _, rfl, by omega, ?_⟩)
          refine ⟨((c.get? t).getD BMap.empty).insert (sc.idAt u) (verifiedOf t p.message), verifiedOf t p.message, ?_, ?_⟩
          · simp only [BMap.get?_insert, if_true]
          · rw [BMap.get?_insert, if_pos (by rw [hK])]
        · have hdue := h.due _ hl.party hd hlt
          rw [hn] at hdue
          rcases hdue with ⟨q, hq, h1, h2⟩ | ⟨s5, a5, h5, h6, -⟩ | ⟨s5, a5, h5, h6⟩ | ⟨_, h5⟩
          · refine Or.inl ⟨q, ?_, h1, h2⟩
            rw [hT] at hq
            simp only [List.mem_append, List.mem_cons] at hq ⊢
            rcases hq with hq | rfl | hq
            · exact Or.inl hq
            · exfalso
              rw [hl.rid] at h2
              exact hK (h.inv.ids ok (j := t) hl.sent hlt h2)
            · exact Or.inr hq
          · exfalso
            have hact : sc.Active (2 * K) p.dest := by
              intro k hk
              rw [spot_echo] at hk
              omega
            have := nxt_le hact h6
            have := hl.low
            omega
          · simp only [Option.some.injEq, RunState.running.injEq] at h5
            obtain ⟨rfl, rfl⟩ := h5
            obtain ⟨y, hy⟩ := BMap.contains_iff.1 h6
            simp only [ha.provable] at hy
            cases hy
          · cases h5
  | @ban s a' a hq hb =>
    obtain ⟨-, hs, ha⟩ := h.inv.running _ s a' ho'
    obtain ⟨h2, h3⟩ := h.not_finished dv hd ho' hq
    obtain ⟨hwf, -, -⟩ := h.inv.incoming ok (p := p) ho' (by rw [hl.src]; exact hl.sent) (by rw [hl.src]; exact hl.expected)
      (by rw [hl.src]; exact hnr)
    rcases Ban.canFinalize hb ha h2 h3 with ⟨hc, -⟩ | ⟨hc, -⟩
    · simp [Manul.step, hc] at hstep
    rw [hl.src] at hstep
    simp only [Manul.step, hc, hb.ignores ok.env.serMeta hwf, Option.some.injEq, Prod.mk.injEq] at hstep
    obtain ⟨rfl, rfl⟩ := hstep
    refine ⟨rfl, b ++ b', h.lateStep hw hT hd (by rw [hn]; simp) ?_ ?_⟩
    · rw [ho']
      exact .ban hq hb
    · obtain ⟨ev, -, -, hev⟩ := hb.provable
      exact Or.inr (Or.inr (Or.inl ⟨s, a, rfl, BMap.contains_iff.2 ⟨ev, by rw [hev, if_pos rfl]⟩⟩))
  | ended hq hb => simp [Manul.step] at hstep

end Scheme

end Manul
