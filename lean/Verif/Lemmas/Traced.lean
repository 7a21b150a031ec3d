import Verif.Spec.Traced
import Verif.Lemmas.Bans
import Verif.Props.EvidenceComplete

/-! # The origin of evidence -/

namespace Manul

variable {sp : SP} {P : Proto sp} {V : Session P → Prop} {s₀ : Session P} {l : List (Delivery P)}

theorem Given.mono {x : sp.Id} {sid : Bytes} {rid : RoundId} {k : PartKind} {p : SignedPart k} (h : Given l x sid rid p)
    (d : Delivery P) : Given (l ++ [d]) x sid rid p := by
  obtain ⟨d', h1, h2⟩ := h
  exact ⟨d', List.mem_append_left _ h1, h2⟩

theorem EchoGiven.mono {x : sp.Id} {rid : RoundId} {p : SignedPart .echo} (h : EchoGiven V s₀ l x rid p) (d : Delivery P) :
    EchoGiven V s₀ (l ++ [d]) x rid p := h.imp (fun g => ⟨g.1, g.2.mono d⟩) id

theorem RefusedIn.mono {s : Session P} {x : sp.Id} {m : Message sp} {err : RecvErr sp} (h : RefusedIn V s₀ s l x m err)
    (d : Delivery P) : RefusedIn V s₀ s (l ++ [d]) x m err := by
  obtain ⟨⟨d', h1, h2⟩, h3⟩ := h
  exact ⟨⟨d', List.mem_append_left _ h1, h2⟩, h3⟩

theorem ProtocolEvidence.Gathered.mono {x : sp.Id} {m : Message sp} {req : RequiredMessages} {e : ProtocolEvidence sp}
    (h : e.Gathered V s₀ l x m req) (d : Delivery P) : e.Gathered V s₀ (l ++ [d]) x m req where
  direct := h.direct
  echo := h.echo
  normal := h.normal
  directs r p hp := (h.directs r p hp).mono d
  normals r p hp := (h.normals r p hp).mono d
  echos r p hp := (h.echos r p hp).mono d
  otherEchos r b y p hb hp := ⟨(h.otherEchos r b y p hb hp).1, (h.otherEchos r b y p hb hp).2.mono d⟩
  echoHashes r p hp := by
    obtain ⟨re, h1, h2⟩ := h.echoHashes r p hp
    exact ⟨re, h1, h2.mono d⟩

theorem Traced.mono {x : sp.Id} {ev : Evidence sp} (h : Traced V s₀ l x ev) (d : Delivery P) : Traced V s₀ (l ++ [d]) x ev := by
  cases h with
  | direct h1 => exact .direct (h1.mono d)
  | echo h1 => exact .echo (h1.mono d)
  | normal h1 => exact .normal (h1.mono d)
  | protocol h1 h2 => exact .protocol (h1.mono d) (h2.mono d)
  | invalidEcho h1 h2 h3 h4 h5 h6 => exact .invalidEcho (h1.mono d) h2 h3 h4 (h5.mono d) h6
  | mismatched h1 h2 h3 h4 h5 h6 h7 h8 => exact .mismatched (h1.mono d) h2 h3 h4 (h5.mono d) h6 h7 h8

/-- Some message given to the session in the name of the party was refused by a round. -/
theorem Traced.refused {x : sp.Id} {ev : Evidence sp} (h : Traced V s₀ l x ev) : ∃ s m err, RefusedIn V s₀ s l x m err := by
  cases h with
  | direct h1 => exact ⟨_, _, _, h1⟩
  | echo h1 => exact ⟨_, _, _, h1⟩
  | normal h1 => exact ⟨_, _, _, h1⟩
  | protocol h1 => exact ⟨_, _, _, h1⟩
  | invalidEcho h1 => exact ⟨_, _, _, h1⟩
  | mismatched h1 => exact ⟨_, _, _, h1⟩

/-- The parts that evidence contains. -/
theorem Traced.held {x : sp.Id} {ev : Evidence sp} (h : Traced V s₀ l x ev) {k : PartKind} {p : SignedPart k}
    (hp : ev.body.Holds k p) : ∃ y rid, PartOf V s₀ l y rid k p := by
  have own : ∀ {s : Session P} {m : Message sp} {err : RecvErr sp}, RefusedIn V s₀ s l x m err →
      ∀ k, Given l x s₀.sessionId s.transition.id (m.signed k) := by
    rintro s m err ⟨⟨d, hd, h1, rfl⟩, -, h2, -⟩ k
    exact ⟨d, hd, h1, h2, rfl⟩
  have eg : ∀ {y : sp.Id} {rid : RoundId} {q : SignedPart .echo}, EchoGiven V s₀ l y rid q → PartOf V s₀ l y rid .echo q :=
    fun g => g.imp (fun g => g.2) id
  cases h with
  | direct h1 =>
    cases hp
    exact ⟨x, _, own h1 .direct⟩
  | echo h1 =>
    cases hp
    exact ⟨x, _, .inl (own h1 .echo)⟩
  | normal h1 =>
    cases hp
    exact ⟨x, _, own h1 .normal⟩
  | @protocol s m req e h1 h2 =>
    cases hp with
    | direct g =>
      rw [h2.direct] at g
      split at g <;> cases g
      exact ⟨x, _, own h1 .direct⟩
    | echo g =>
      rw [h2.echo] at g
      split at g <;> cases g
      exact ⟨x, _, .inl (own h1 .echo)⟩
    | normal g =>
      rw [h2.normal] at g
      split at g <;> cases g
      exact ⟨x, _, own h1 .normal⟩
    | directs g => exact ⟨x, _, h2.directs _ _ g⟩
    | echos g => exact ⟨x, _, eg (h2.echos _ _ g)⟩
    | normals g => exact ⟨x, _, h2.normals _ _ g⟩
    | otherEchos g1 g2 => exact ⟨_, _, eg (h2.otherEchos _ _ _ _ g1 g2).2⟩
    | echoHashes g =>
      obtain ⟨re, -, g2⟩ := h2.echoHashes _ _ g
      exact ⟨x, re, g2⟩
  | invalidEcho h1 =>
    cases hp
    exact ⟨x, _, own h1 .normal⟩
  | mismatched h1 h2 h3 h4 h5 =>
    cases hp
    exact ⟨_, _, eg h5⟩

/-- Whom evidence accuses. -/
theorem Traced.accused {x : sp.Id} {ev : Evidence sp} (h : Traced V s₀ l x ev) :
    ev.guilty = x ∨ ∃ w hh main, ev.body = .mismatched ev.guilty w hh ∧ EchoGiven V s₀ l ev.guilty main w ∧
      HashSigned ev.guilty hh ∧ hh.metadata = w.metadata ∧ hh.hash ≠ sp.partHash w.part := by
  cases h with
  | direct => exact .inl rfl
  | echo => exact .inl rfl
  | normal => exact .inl rfl
  | protocol => exact .inl rfl
  | invalidEcho => exact .inl rfl
  | mismatched h1 h2 h3 h4 h5 h6 h7 h8 => exact .inr ⟨_, _, _, rfl, h5, h6, h7, h8⟩

/-- The parts a transcript holds have been given to the session. -/
structure TranscriptGiven (V : Session P → Prop) (s₀ : Session P) (l : List (Delivery P)) (t : Transcript sp) : Prop where
  echos : ∀ r m x p, t.echos.get? r = some m → m.get? x = some p → EchoGiven V s₀ l x r p
  normals : ∀ r m x p, t.normals.get? r = some m → m.get? x = some p → Given l x s₀.sessionId r p
  directs : ∀ r m x p, t.directs.get? r = some m → m.get? x = some p → Given l x s₀.sessionId r p
  provable : ∀ x ev, t.provable.get? x = some ev → Traced V s₀ l x ev

/-- The invariant. -/
structure TraceInv (V : Session P → Prop) (s₀ : Session P) (l : List (Delivery P)) (s : Session P) (a : Accum P) : Prop where
  transcript : TranscriptGiven V s₀ l s.transcript
  echos : ∀ x p, a.echos.get? x = some p → Given l x s₀.sessionId s.transition.id p
  normals : ∀ x p, a.normals.get? x = some p → Given l x s₀.sessionId s.transition.id p
  directs : ∀ x p, a.directs.get? x = some p → Given l x s₀.sessionId s.transition.id p
  provable : ∀ x ev, a.provable.get? x = some ev → Traced V s₀ l x ev

theorem TranscriptGiven.mono {t : Transcript sp} (h : TranscriptGiven V s₀ l t) (d : Delivery P) : TranscriptGiven V s₀ (l ++ [d]) t where
  echos r m x p h1 h2 := (h.echos r m x p h1 h2).mono d
  normals r m x p h1 h2 := (h.normals r m x p h1 h2).mono d
  directs r m x p h1 h2 := (h.directs r m x p h1 h2).mono d
  provable x ev h1 := (h.provable x ev h1).mono d

theorem TraceInv.mono {s : Session P} {a : Accum P} (h : TraceInv V s₀ l s a) (d : Delivery P) : TraceInv V s₀ (l ++ [d]) s a where
  transcript := h.transcript.mono d
  echos x p hp := (h.echos x p hp).mono d
  normals x p hp := (h.normals x p hp).mono d
  directs x p hp := (h.directs x p hp).mono d
  provable x ev hx := (h.provable x ev hx).mono d

/-- What is needed of the session objects of a run. -/
structure RunOf (V : Session P → Prop) (s₀ : Session P) : Prop where
  first : Proper s₀
  proper : ∀ s, V s → Proper s
  sessionId : ∀ s, V s → s.sessionId = s₀.sessionId
  signer : ∀ s, V s → s.signer = s₀.signer
  echos : ∀ s e, V s → s.round = .echo e → s.transcript.echos.get? (P.transition e.main).id = some e.echoBroadcasts

theorem inRun_runOf (hp0 : Proper s₀) (hm0 : ∃ r, s₀.round = .main r) : RunOf (InRun s₀) s₀ where
  first := hp0
  proper := fun _ ⟨_, _, hv⟩ => (visits_inv hp0 hm0 hv).proper
  sessionId := fun _ ⟨_, _, hv⟩ => (visits_inv hp0 hm0 hv).sessionId
  signer := fun _ ⟨_, _, hv⟩ => (visits_inv hp0 hm0 hv).signer
  echos := fun _ _ ⟨_, _, hv⟩ he => visits_echo_transcript hp0 hm0 hv he

/-- What adding a processed message does to the parts and to the evidence. -/
theorem addProcessed_parts {t : Transcript sp} {a a' : Accum P} {p : Processed P} (h : a.addProcessed t p = .ok a') :
    (a'.echos = a.echos ∨ a'.echos = a.echos.insert p.message.sender p.message.echo) ∧
      (a'.normals = a.normals ∨ a'.normals = a.normals.insert p.message.sender p.message.normal) ∧
      (a'.directs = a.directs ∨ a'.directs = a.directs.insert p.message.sender p.message.direct) ∧
      (a'.provable = a.provable ∨ ∃ ev, Recorded t p ev ∧ a'.provable = a.provable.insert p.message.sender ev) := by
  have ins : ∀ {k : PartKind} (m : BMap sp.Id (SignedPart k)) (who : sp.Id) (q : SignedPart k),
      Accum.insertPart m who q = m ∨ Accum.insertPart m who q = m.insert who q := by
    intro k m who q
    unfold Accum.insertPart
    split
    · exact .inl rfl
    · exact .inr rfl
  have reg : ∀ {b b' : Accum P} {who : sp.Id} {ev : Evidence sp}, b.registerProvable who ev = .ok b' →
      b'.echos = b.echos ∧ b'.normals = b.normals ∧ b'.directs = b.directs ∧ b'.provable = b.provable.insert who ev := by
    intro b b' who ev hr
    unfold Accum.registerProvable at hr
    split at hr
    · cases hr
    · simp only [Except.ok.injEq] at hr
      subst hr
      exact ⟨rfl, rfl, rfl, rfl⟩
  have fin : ∀ {b : Accum P} {ev : Evidence sp}, b.echos = a.echos → b.normals = a.normals → b.directs = a.directs →
      b.provable = a.provable → b.registerProvable p.message.sender ev = .ok a' → Recorded t p ev →
      (a'.echos = a.echos ∨ a'.echos = a.echos.insert p.message.sender p.message.echo) ∧
      (a'.normals = a.normals ∨ a'.normals = a.normals.insert p.message.sender p.message.normal) ∧
      (a'.directs = a.directs ∨ a'.directs = a.directs.insert p.message.sender p.message.direct) ∧
      (a'.provable = a.provable ∨ ∃ ev, Recorded t p ev ∧ a'.provable = a.provable.insert p.message.sender ev) := by
    intro b ev e1 e2 e3 e4 hr hrec
    obtain ⟨h1, h2, h3, h4⟩ := reg hr
    exact ⟨.inl (h1.trans e1), .inl (h2.trans e2), .inl (h3.trans e3), .inr ⟨ev, hrec, by rw [h4, e4]⟩⟩
  unfold Accum.addProcessed at h
  simp only at h
  split at h
  · cases h
  · split at h
    · cases h
    · split at h
      · simp only [Except.ok.injEq] at h
        subst h
        exact ⟨ins _ _ _, ins _ _ _, ins _ _ _, .inl rfl⟩
      · rename_i he
        refine fin ?_ ?_ ?_ ?_ h (.direct he) <;> rfl
      · rename_i he
        refine fin ?_ ?_ ?_ ?_ h (.echoBroadcast he) <;> rfl
      · rename_i he
        refine fin ?_ ?_ ?_ ?_ h (.normal he) <;> rfl
      · rename_i req ser he
        split at h
        · cases h
        · rename_i ev hev
          refine fin ?_ ?_ ?_ ?_ h (.protocol he hev) <;> rfl
      · simp only [Except.ok.injEq] at h
        subst h
        exact ⟨.inl rfl, .inl rfl, .inl rfl, .inl rfl⟩
      · rename_i e he
        refine fin ?_ ?_ ?_ ?_ h (.echo he) <;> rfl
      · cases h

theorem sendAll_parts {s : Session P} {rng : sp.Rng} {ds : List sp.Id} {i : Nat} {a a' : Accum P}
    {out : List (Message sp)} (h : sendAll s rng i a ds = .ok (a', out)) :
    a'.echos = a.echos ∧ a'.normals = a.normals ∧ a'.directs = a.directs ∧ a'.provable = a.provable := by
  induction ds generalizing i a a' out with
  | nil =>
    simp only [sendAll, Except.ok.injEq, Prod.mk.injEq] at h
    obtain ⟨rfl, -⟩ := h
    exact ⟨rfl, rfl, rfl, rfl⟩
  | cons d ds ih =>
    simp only [sendAll] at h
    split at h
    · cases h
    · split at h
      · cases h
      · rename_i a1 h1
        split at h
        · cases h
        · rename_i a2 ms h2
          simp only [Except.ok.injEq, Prod.mk.injEq] at h
          obtain ⟨rfl, -⟩ := h
          obtain ⟨f1, f2, f3, f4⟩ := ih h2
          unfold Accum.addArtifact at h1
          split at h1
          · cases h1
          · simp only [Except.ok.injEq] at h1
            subst h1
            exact ⟨f1, f2, f3, f4⟩

/-- Evidence of a protocol error. -/
theorem gathered {t : Transcript sp} (ht : TranscriptGiven V s₀ l t) {x : sp.Id} {m : Message sp} {req : RequiredMessages}
    {ser : Except LErr Bytes} {ev : Evidence sp} (h : Evidence.newProvableError x m.echo m.normal m.direct req ser t = .ok ev) :
    ∃ e, ev = ⟨x, .protocol e⟩ ∧ ser = .ok e.error ∧ e.Gathered V s₀ l x m req := by
  obtain ⟨prev, comb, bytes, h1, h2, h3, h4⟩ := newProvableError_ok h
  obtain ⟨p1, p2, p3⟩ := Evidence.fetchPrevious_split _ _ _ h1
  obtain ⟨-, q1, -⟩ := Evidence.fetch_fold (fun rp => rp.echo) _ _ _ p1
  obtain ⟨-, q2, -⟩ := Evidence.fetch_fold (fun rp => rp.normal) _ _ _ p2
  obtain ⟨-, q3, -⟩ := Evidence.fetch_fold (fun rp => rp.direct) _ _ _ p3
  obtain ⟨c1, c2⟩ := Evidence.fetchCombined_fold _ _ _ h2
  refine ⟨_, h4, h3, rfl, rfl, rfl, ?_, ?_, ?_, ?_, ?_⟩
  · intro r p hp
    rcases q3 r p hp with ⟨rp, -, -, hg⟩ | hn
    · obtain ⟨e, g1, g2⟩ := Evidence.getPart_ok.1 hg
      exact ht.directs r e x p g1 g2
    · simp at hn
  · intro r p hp
    rcases q2 r p hp with ⟨rp, -, -, hg⟩ | hn
    · obtain ⟨e, g1, g2⟩ := Evidence.getPart_ok.1 hg
      exact ht.normals r e x p g1 g2
    · simp at hn
  · intro r p hp
    rcases q1 r p hp with ⟨rp, -, -, hg⟩ | hn
    · obtain ⟨e, g1, g2⟩ := Evidence.getPart_ok.1 hg
      exact ht.echos r e x p g1 g2
    · simp at hn
  · intro r b y p hb hp
    by_cases hr : r ∈ (match req.combined with | none => [] | some s => s.elems)
    · obtain ⟨re, n, o, g1, g2, g3, g4, g5⟩ := c1 r hr
      simp only at hb
      rw [g5, Option.some.injEq] at hb
      subst hb
      rw [BMap.get?_erase] at hp
      split at hp
      · cases hp
      · rename_i hy
        exact ⟨hy, ht.echos r o y p g3 hp⟩
    · have := (c2 r hr).2
      simp only at hb
      rw [this] at hb
      simp at hb
  · intro r p hp
    by_cases hr : r ∈ (match req.combined with | none => [] | some s => s.elems)
    · obtain ⟨re, n, o, g1, g2, g3, g4, g5⟩ := c1 r hr
      simp only at hp
      rw [g4, Option.some.injEq] at hp
      subst hp
      obtain ⟨e, k1, k2⟩ := Evidence.getPart_ok.1 g2
      exact ⟨re, g1, ht.normals re e x n k1 k2⟩
    · have := (c2 r hr).1
      simp only at hp
      rw [this] at hp
      simp at hp

/-- Processing a message. -/
theorem TraceInv.apply (mi : MainIds P) (ne : NoEchoErr P) (ro : RunOf V s₀) {s : Session P}
    {a a' : Accum P} (h : TraceInv V s₀ l s a) (hv : V s) {x : sp.Id} {m : Message sp} (hm : HasDelivery l x s.sessionId s.transition.id m)
    (ha : applyVerified s a (verifiedOf x m) = .ok a') : TraceInv V s₀ l s a' := by
  rw [ro.sessionId s hv] at hm
  obtain ⟨h1, h2, h3, h4⟩ := addProcessed_parts ha
  have hg : ∀ k, Given l x s₀.sessionId s.transition.id (m.signed k) := by
    intro k
    obtain ⟨⟨d, hd, rfl, rfl⟩, hau⟩ := hm
    exact ⟨d, hd, rfl, hau, rfl⟩
  have part : ∀ {k : PartKind} {b b' : BMap sp.Id (SignedPart k)}, (∀ y q, b.get? y = some q →
      Given l y s₀.sessionId s.transition.id q) → (b' = b ∨ b' = b.insert x (m.signed k)) →
      ∀ y q, b'.get? y = some q → Given l y s₀.sessionId s.transition.id q := by
    intro k b b' hb hb' y q hq
    rcases hb' with rfl | rfl
    · exact hb y q hq
    · rw [BMap.get?_insert] at hq
      split at hq
      · rename_i hy
        simp only [Option.some.injEq] at hq
        subst hq
        rw [hy]
        exact hg k
      · exact hb y q hq
  refine ⟨h.transcript, part h.echos h1, part h.normals h2, part h.directs h3, ?_⟩
  rcases h4 with h4 | ⟨ev, hrec, h4⟩
  · rw [h4]
    exact h.provable
  · intro y ev' hy
    rw [h4, BMap.get?_insert] at hy
    split at hy
    · rename_i hxy
      simp only [Option.some.injEq] at hy
      subst hy
      rw [show y = x from hxy]
      have ref : ∀ {err : RecvErr sp}, (s.process (verifiedOf x m)).result = .error err → RefusedIn V s₀ s l x m err := by
        intro err he
        exact ⟨hm.1, hv, hm.2, he⟩
      cases hrec with
      | direct he => exact .direct (ref he)
      | echoBroadcast he => exact .echo (ref he)
      | normal he => exact .normal (ref he)
      | protocol he hev =>
        obtain ⟨e, rfl, rfl, g⟩ := gathered h.transcript hev
        exact .protocol (ref he) g
      | @echo err he =>
        have href := ref he
        cases hrd : s.round with
        | main r =>
          exfalso
          have h5 := href.2.2.2
          rw [hrd] at h5
          exact ne r _ _ _ (receive_main_error h5)
        | echo er =>
          have h5 := href.2.2.2
          rw [hrd] at h5
          obtain ⟨pack, k, hh, p, g1, g2, g3, g4⟩ := receive_echoErr (receive_echo_error h5)
          have hw := h.transcript.echos _ _ k p (ro.echos s er hv hrd) g3
          have hid := (echo_transition_id mi (ro.proper s hv) hrd).1
          rcases g4 with ⟨rfl, g5⟩ | ⟨rfl, g5, g6, g7⟩
          · exact .invalidEcho href hid g1 g2 hw g5
          · exact .mismatched href hid g1 g2 hw g5 g6 g7
    · exact h.provable y ev' hy

theorem TraceInv.start (mi : MainIds P) (ne : NoEchoErr P) (ro : RunOf V s₀) {s : Session P}
    {a : Accum P} {rng : sp.Rng} {cached : List (VerifiedMessage sp)}
    {out : List (Message sp)} (hv : V s) (ht : TranscriptGiven V s₀ l s.transcript)
    (hc : ∀ vm ∈ cached, ∃ x m, vm = verifiedOf x m ∧ HasDelivery l x s.sessionId s.transition.id m)
    (h : startRound s rng cached = .ok (a, out)) : TraceInv V s₀ l s a := by
  unfold startRound at h
  split at h
  · cases h
  · rename_i a0 out0 h0
    split at h
    · cases h
    · rename_i a1 h1
      simp only [Except.ok.injEq, Prod.mk.injEq] at h
      obtain ⟨rfl, -⟩ := h
      obtain ⟨e1, e2, e3, e4⟩ := sendAll_parts h0
      have hi : TraceInv V s₀ l s a0 := by
        refine ⟨ht, ?_, ?_, ?_, ?_⟩
        · rw [e1]
          intro x p hx
          simp [Session.makeAccum, Accum.new] at hx
        · rw [e2]
          intro x p hx
          simp [Session.makeAccum, Accum.new] at hx
        · rw [e3]
          intro x p hx
          simp [Session.makeAccum, Accum.new] at hx
        · rw [e4]
          intro x p hx
          simp [Session.makeAccum, Accum.new] at hx
      clear h0 e1 e2 e3 e4
      have key : ∀ (c : List (VerifiedMessage sp)) (b : Accum P), (∀ vm ∈ c, vm ∈ cached) → TraceInv V s₀ l s b →
          foldE (applyVerified s) b c = .ok a1 → TraceInv V s₀ l s a1 := by
        intro c
        induction c with
        | nil =>
          intro b _ hb hf
          simp only [foldE, Except.ok.injEq] at hf
          exact hf ▸ hb
        | cons vm c ih =>
          intro b hmem hb hf
          simp only [foldE] at hf
          split at hf
          · rename_i b' hb'
            obtain ⟨x, m, rfl, hm⟩ := hc vm (hmem vm (List.mem_cons_self ..))
            exact ih b' (fun v hv => hmem v (List.mem_cons_of_mem _ hv)) (hb.apply mi ne ro hv hm hb') hf
          · cases hf
      exact key cached a0 (fun _ h => h) hi h1

/-- Receiving a message, without processing it. -/
theorem TraceInv.preprocess {s : Session P} {a a' : Accum P} (mt : sp.MetaTotal) (wf : EchoWellFormed s) (h : TraceInv V s₀ l s a)
    {y : sp.Id} {m : Message sp} {o : PreOutcome sp} (hd : s.preprocess a y m = .ok (a', o)) :
    TraceInv V s₀ (l ++ [⟨s, a, y, m⟩]) s a' ∧ ∀ vm, o.ok? = some vm → vm = verifiedOf y m ∧
      HasDelivery (l ++ [⟨s, a, y, m⟩]) y s.sessionId s.transition.id m := by
  obtain ⟨v, hrow, hpre⟩ := C02_outcome_determined mt s wf a y m
  rw [hpre] at hd
  have hmem : (⟨s, a, y, m⟩ : Delivery P) ∈ l ++ [⟨s, a, y, m⟩] := by simp
  have hm := h.mono ⟨s, a, y, m⟩
  cases v with
  | process =>
    simp only [Verdict.effect, Except.ok.injEq, Prod.mk.injEq] at hd
    obtain ⟨rfl, rfl⟩ := hd
    have hau : Authentic y s.sessionId s.transition.id m.direct m.echo m.normal := by
      cases hrow with
      | process _ _ h3 => exact h3
    refine ⟨⟨hm.transcript, hm.echos, hm.normals, hm.directs, hm.provable⟩, fun vm hvm => ?_⟩
    simp only [PreOutcome.ok?, Option.some.injEq] at hvm
    exact ⟨hvm.symm, ⟨_, hmem, rfl, rfl⟩, hau⟩
  | ignore =>
    simp only [Verdict.effect, Except.ok.injEq, Prod.mk.injEq] at hd
    obtain ⟨rfl, rfl⟩ := hd
    exact ⟨hm, by simp [PreOutcome.ok?]⟩
  | refuse e =>
    simp only [Verdict.effect, Except.ok.injEq, Prod.mk.injEq] at hd
    obtain ⟨rfl, rfl⟩ := hd
    exact ⟨⟨hm.transcript, hm.echos, hm.normals, hm.directs, hm.provable⟩, by simp [PreOutcome.ok?]⟩
  | keep =>
    simp only [Verdict.effect, Except.ok.injEq, Prod.mk.injEq] at hd
    obtain ⟨rfl, rfl⟩ := hd
    exact ⟨⟨hm.transcript, hm.echos, hm.normals, hm.directs, hm.provable⟩, by simp [PreOutcome.ok?]⟩

/-- Receiving a message. -/
theorem TraceInv.deliver (mi : MainIds P) (ne : NoEchoErr P) (ro : RunOf V s₀) {s : Session P} {a a' : Accum P} (mt : sp.MetaTotal)
    (wf : EchoWellFormed s) (h : TraceInv V s₀ l s a) (hv : V s) {y : sp.Id} {m : Message sp}
    (hd : Manul.deliver s a y m = .ok a') : TraceInv V s₀ (l ++ [⟨s, a, y, m⟩]) s a' := by
  unfold Manul.deliver at hd
  cases hp : s.preprocess a y m with
  | error e => simp [hp] at hd
  | ok q =>
    obtain ⟨b, o⟩ := q
    obtain ⟨h1, h2⟩ := h.preprocess mt wf hp
    simp only [hp] at hd
    cases ho : o.ok? with
    | none =>
      simp only [ho, Except.ok.injEq] at hd
      exact hd ▸ h1
    | some vm =>
      simp only [ho] at hd
      obtain ⟨rfl, h3⟩ := h2 vm ho
      exact h1.apply mi ne ro hv h3 hd

/-- The transcript at the end of a round. -/
theorem TraceInv.updated (ro : RunOf V s₀) {s : Session P} {a : Accum P} (h : TraceInv V s₀ l s a) (hv : V s)
    {t : Transcript sp} (hu : Updated s.transcript s.roundId s.me s.echo a t) : TranscriptGiven V s₀ l t := by
  have hme : s.me = s₀.me := by rw [(ro.proper s hv).me, ro.signer s hv, ro.first.me]
  refine ⟨?_, ?_, ?_, ?_⟩
  · intro r m x p h1 h2
    rw [hu.echos, BMap.get?_insert] at h1
    split at h1
    · rename_i hr
      simp only [Option.some.injEq] at h1
      subst h1
      rw [hr]
      rw [BMap.get?_insert] at h2
      split at h2
      · rename_i hx
        simp only [Option.some.injEq] at h2
        exact .inr ⟨hx.trans hme, s, hv, rfl, h2⟩
      · rename_i hx
        exact .inl ⟨fun g => hx (g.trans hme.symm), h.echos x p h2⟩
    · exact h.transcript.echos r m x p h1 h2
  · intro r m x p h1 h2
    rw [hu.normals, BMap.get?_insert] at h1
    split at h1
    · rename_i hr
      simp only [Option.some.injEq] at h1
      subst h1
      rw [hr]
      exact h.normals x p h2
    · exact h.transcript.normals r m x p h1 h2
  · intro r m x p h1 h2
    rw [hu.directs, BMap.get?_insert] at h1
    split at h1
    · rename_i hr
      simp only [Option.some.injEq] at h1
      subst h1
      rw [hr]
      exact h.directs x p h2
    · exact h.transcript.directs r m x p h1 h2
  · intro x ev hx
    rw [hu.provable] at hx
    rcases Option.or_eq_some_iff.1 hx with hx | ⟨-, hx⟩
    · exact h.provable x ev hx
    · exact h.transcript.provable x ev hx

/-- The invariant holds in all runs. -/
theorem reachVia_traced (mt : sp.MetaTotal) (mi : MainIds P) (ne : NoEchoErr P) {rng : sp.Rng} {sid : Bytes} {signer : sp.Signer}
    {ep : EntryPoint P} (h0 : Session.new rng sid signer ep = .ok s₀) {st : RunState P} (h : ReachVia s₀ l st) :
    (∀ s a, st = .running s a → TraceInv (InRun s₀) s₀ l s a) ∧
      ∀ rep, st = .done (.ok rep) → ∀ x ev, rep.provable.get? x = some ev → Traced (InRun s₀) s₀ l x ev := by
  obtain ⟨hp0, -, -, ht0, hm0⟩ := new_proper h0
  have ro := inRun_runOf hp0 hm0
  have done : ∀ {l : List (Delivery P)} {s : Session P} {a : Accum P} {ev : Event sp} {out : List (Message sp)} {rep : Report P},
      Reach s₀ (.running s a) → TraceInv (InRun s₀) s₀ l s a → Manul.step (.running s a) ev = some (.done (.ok rep), out) →
      ∀ x ev, rep.provable.get? x = some ev → Traced (InRun s₀) s₀ l x ev := by
    intro l s a ev out rep hr hi hs x e hx
    obtain ⟨trail, cached, rng', ml, hv, hseq⟩ := reach_running hr
    obtain ⟨t, hu, he⟩ := step_report hs
    rw [he] at hx
    exact (hi.updated ro ⟨_, _, hv⟩ hu).provable x e hx
  induction h with
  | start rng' =>
    refine ⟨?_, ?_⟩
    · intro s a he
      have he' : enterRound s₀ rng' [] = (.running s a, (enterRound s₀ rng' []).2) := Prod.ext he rfl
      rcases enter_cases he' with ⟨e, h1, -⟩ | ⟨a2, h1, h2⟩
      · cases h1
      · simp only [RunState.running.injEq] at h1
        obtain ⟨rfl, rfl⟩ := h1
        refine TraceInv.start mi ne ro ⟨_, _, .first⟩ ?_ (by simp) h2
        rw [ht0]
        refine ⟨?_, ?_, ?_, ?_⟩
        · intro r m x p h1 _
          simp [Transcript.new] at h1
        · intro r m x p h1 _
          simp [Transcript.new] at h1
        · intro r m x p h1 _
          simp [Transcript.new] at h1
        · intro x ev h1
          simp [Transcript.new] at h1
    · intro rep he
      have he' : enterRound s₀ rng' [] = (.done (.ok rep), (enterRound s₀ rng' []).2) := Prod.ext he rfl
      rcases enter_cases he' with ⟨e, h1, -⟩ | ⟨a2, h1, -⟩ <;> cases h1
  | @step l st st' ev out hr hev hs ih =>
    cases st with
    | done r => simp [Manul.step] at hs
    | running s a =>
      have hinv := ih.1 s a rfl
      refine ⟨?_, ?_⟩
      · intro s1 a1 hst
        subst hst
        obtain ⟨trail, cached, rng', ml, hv, hseq⟩ := reach_running hr.reach
        rcases step_full hs with ⟨-, r, hr⟩ | ⟨-, x, m, a', hd, -⟩ | ⟨rng1, rng2, s', cached', hy, hf, he⟩
        · cases hr
        · exact absurd hd (hev x m)
        · rcases enter_cases he with ⟨e, h1, -⟩ | ⟨a2, h1, h2⟩
          · cases h1
          · simp only [RunState.running.injEq] at h1
            obtain ⟨rfl, rfl⟩ := h1
            obtain ⟨-, i2⟩ := ((reachVia_cause mt mi h0 hr).1 s a rfl).next hf
            obtain ⟨t, hu, hfin⟩ := finalizeRound_ok hf
            have ht := hinv.updated ro ⟨_, _, hv⟩ hu
            have hst : s1.transcript = t := by
              cases hfin with
              | toNext hei hr hch hns hrid => exact hns.transcript
              | toEcho hei hr hget hns => exact hns.transcript
            exact TraceInv.start mi ne ro ⟨_, _, .next hv hseq hy hf⟩ (by rw [hst]; exact ht) i2 h2
      · intro rep hst
        subst hst
        exact done hr.reach hinv hs
  | @deliver l s a st' x m out hr hs ih =>
    have hinv := ih.1 s a rfl
    refine ⟨?_, ?_⟩
    · intro s1 a1 hst
      subst hst
      obtain ⟨trail, cached, rng', ml, hv, hseq⟩ := reach_running hr.reach
      have wf := proper_wellFormed mi (visits_inv hp0 hm0 hv).proper
      rcases step_full hs with ⟨-, r, hr⟩ | ⟨-, x', m', a', hd, h1, h2⟩ | ⟨rng1, rng2, s', cached', hy, hf, he⟩
      · cases hr
      · cases hd
        simp only [RunState.running.injEq] at h2
        obtain ⟨rfl, rfl⟩ := h2
        exact hinv.deliver mi ne ro mt wf ⟨_, _, hv⟩ h1
      · unfold Manul.step at hs
        simp [hy] at hs
    · intro rep hst y r hy
      subst hst
      exact (done hr.reach hinv hs y r hy).mono _

end Manul
