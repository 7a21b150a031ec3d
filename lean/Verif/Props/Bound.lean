import Verif.Lemmas.Bound
import Verif.Props.Preprocess
import Verif.Lemmas.Honest
import Verif.Lemmas.SimpleEvidence
import Verif.Props.Simple

/-!
# C67: the size of what a session keeps

`Keeps`, `entries` and `ReachBy` are defined in `Verif/Spec/Bound.lean`.
-/

namespace Manul

variable {sp : SP} {P : Proto sp}

/-- **C67.**  A run keeps something of a party, or files an error under it, only if a message has been given to it in the name of
that party; except for the own echo broadcast, which is in the transcript under the own key. -/
theorem C67_senders_only {Q : sp.Id → Prop} {rng : sp.Rng} {sid : Bytes} {signer : sp.Signer} {ep : EntryPoint P} {s₀ s : Session P}
    {a : Accum P} (h0 : Session.new rng sid signer ep = .ok s₀) (h : ReachBy Q s₀ (.running s a)) (x : sp.Id) :
    (a.Keeps x → Q x) ∧ (s.transcript.Keeps x → Q x ∨ x = sp.verifyingKey signer) := by
  obtain ⟨hp, -, hsg, ht, -⟩ := new_proper h0
  have hme := hp.me
  have hi := reachBy_kinv hme ht h s a rfl
  refine ⟨?_, ?_⟩
  · intro hk
    rcases hi.accum x with hQ | hQ
    · exact hQ
    · exact absurd hk (quiet_of_not_keeps.1 hQ)
  · intro hk
    have := hi.transcript x hk
    rwa [hme, hsg] at this

/-- **C67.**  The report of a run has errors of parties only in whose name a message has been given to it. -/
theorem C67_report {Q : sp.Id → Prop} {rng : sp.Rng} {sid : Bytes} {signer : sp.Signer} {ep : EntryPoint P} {s₀ : Session P}
    {rep : Report P} (h0 : Session.new rng sid signer ep = .ok s₀) (h : ReachBy Q s₀ (.done (.ok rep))) (x : sp.Id)
    (hx : rep.provable.contains x = true ∨ rep.unprovable.contains x = true) : Q x := by
  obtain ⟨hp, -, -, ht, -⟩ := new_proper h0
  obtain ⟨s, a, t, hr, hup, h1, h2⟩ := reachBy_done h
  refine (reachBy_kinv hp.me ht hr s a rfl).updated_banned hup ?_
  rw [h1, h2] at hx
  unfold Transcript.isBanned
  exact (Bool.or_eq_true _ _).mpr hx

/-- **C67.**  The messages kept for later are for rounds simultaneous with the current one, at most one for each. -/
theorem C67_cache {rng : sp.Rng} {sid : Bytes} {signer : sp.Signer} {ep : EntryPoint P} {s₀ s : Session P}
    {a : Accum P} (h0 : Session.new rng sid signer ep = .ok s₀) (h : Reach s₀ (.running s a)) {x : sp.Id}
    {e : BMap RoundId (VerifiedMessage sp)} (hx : a.cached.get? x = some e) {r : RoundId} (hr : e.contains r = true) :
    Simultaneous s r ∧ r ≠ s.transition.id := by
  obtain ⟨hp, -, -, -, hm⟩ := new_proper h0
  obtain ⟨trail, cached, rng', l, hv, hseq⟩ := reach_running h
  have hi := visits_inv hp hm hv
  obtain ⟨vm, hvm⟩ := BMap.contains_iff.1 hr
  obtain ⟨-, -, h1, h2, -⟩ := (seqRound_rinv hseq (by rw [hi.sessionId]; exact hi.authentic) x).cached e hx r vm hvm
  exact ⟨h2, h1⟩

/-- **C67.**  If messages are given to a session in the name of finitely many parties only, what it keeps is bounded by their
number, the number of simultaneous rounds, and the number of rounds of the run, however many messages there are.  Not as
stated: the hypothesis cannot be dropped (`C67_flood_violation`, `C67_unbounded_violation`). -/
theorem C67_bounded_partial {Q : sp.Id → Prop} {rng : sp.Rng} {sid : Bytes} {signer : sp.Signer} {ep : EntryPoint P} {s₀ s : Session P}
    {a : Accum P} (h0 : Session.new rng sid signer ep = .ok s₀) (h : ReachBy Q s₀ (.running s a))
    {q : List sp.Id} (hq : ∀ x, Q x → x ∈ q) {k : List RoundId} (hk : ∀ r, Simultaneous s r → r ∈ k) {rs : List RoundId}
    (hrs : ∀ s' a', ReachBy Q s₀ (.running s' a') → s'.transition.id ∈ rs) :
    a.entries ≤ q.length * (7 + k.length) ∧ s.transcript.entries ≤ (q.length + 1) * (2 + 3 * rs.length) := by
  have hb := C67_senders_only h0 h
  obtain ⟨hp, -, hsg, ht, -⟩ := new_proper h0
  have hi := reachBy_kinv hp.me ht h s a rfl
  refine ⟨?_, ?_⟩
  · have e : ∀ {V : Type} {m : BMap sp.Id V}, (∀ x, m.contains x = true → a.Keeps x) → m.size ≤ q.length :=
      fun hm => BMap.size_le fun x hx => hq x ((hb x).1 (hm x hx))
    have h1 : a.processing.size ≤ q.length := e fun x hx => by simp [Accum.Keeps, hx]
    have h2 : a.payloads.size ≤ q.length := e fun x hx => by simp [Accum.Keeps, hx]
    have h3 : a.echos.size ≤ q.length := e fun x hx => by simp [Accum.Keeps, hx]
    have h4 : a.normals.size ≤ q.length := e fun x hx => by simp [Accum.Keeps, hx]
    have h5 : a.directs.size ≤ q.length := e fun x hx => by simp [Accum.Keeps, hx]
    have h6 : a.provable.size ≤ q.length := e fun x hx => by simp [Accum.Keeps, hx]
    have h7 : a.unprovable.size ≤ q.length := e fun x hx => by simp [Accum.Keeps, hx]
    have h8 : a.cached.total ≤ q.length * k.length :=
      BMap.total_le (fun x hx => hq x ((hb x).1 (by simp [Accum.Keeps, hx])))
        (fun x m r hx hr => hk r (C67_cache h0 h.reach hx hr).1)
    unfold Accum.entries
    rw [Nat.mul_add]
    omega
  · have hq' : ∀ x, s.transcript.Keeps x → x ∈ sp.verifyingKey signer :: q := by
      intro x hx
      rcases (hb x).2 hx with h | h
      · exact List.mem_cons_of_mem _ (hq x h)
      · rw [h]; exact List.mem_cons_self ..
    have hl : (sp.verifyingKey signer :: q).length = q.length + 1 := rfl
    have h1 : s.transcript.provable.size ≤ q.length + 1 :=
      BMap.size_le (q := sp.verifyingKey signer :: q) fun x hx => hq' x (by simp [Transcript.Keeps, hx])
    have h2 : s.transcript.unprovable.size ≤ q.length + 1 :=
      BMap.size_le (q := sp.verifyingKey signer :: q) fun x hx => hq' x (by simp [Transcript.Keeps, hx])
    have hr : ∀ r, s.transcript.echos.contains r = true ∨ s.transcript.normals.contains r = true ∨
        s.transcript.directs.contains r = true → r ∈ rs := by
      intro r hr
      obtain ⟨s', a', h', rfl⟩ := hi.rounds r hr
      exact hrs s' a' h'
    have h3 : s.transcript.echos.total ≤ rs.length * (q.length + 1) :=
      BMap.total_le (k := sp.verifyingKey signer :: q) (fun r hx => hr r (Or.inl hx))
        (fun r m x hm hx => hq' x (Or.inr (Or.inr (Or.inl ⟨r, m, hm, hx⟩))))
    have h4 : s.transcript.normals.total ≤ rs.length * (q.length + 1) :=
      BMap.total_le (k := sp.verifyingKey signer :: q) (fun r hx => hr r (Or.inr (Or.inl hx)))
        (fun r m x hm hx => hq' x (Or.inr (Or.inr (Or.inr (Or.inl ⟨r, m, hm, hx⟩)))))
    have h5 : s.transcript.directs.total ≤ rs.length * (q.length + 1) :=
      BMap.total_le (k := sp.verifyingKey signer :: q) (fun r hx => hr r (Or.inr (Or.inr hx)))
        (fun r m x hm hx => hq' x (Or.inr (Or.inr (Or.inr (Or.inr ⟨r, m, hm, hx⟩)))))
    unfold Transcript.entries
    have e1 : (q.length + 1) * (2 + 3 * rs.length) = 2 * (q.length + 1) + 3 * (rs.length * (q.length + 1)) := by
      rw [Nat.mul_add, Nat.mul_comm _ 2, Nat.mul_left_comm, Nat.mul_comm rs.length]
    rw [e1]
    omega

/-- The rounds of the simple test protocol. -/
def simpleRounds : List RoundId := [⟨1, [], false⟩, ⟨1, [], true⟩, ⟨2, [], false⟩]

/-- The rounds whose messages are accepted during a run. -/
def simpleOpen : List RoundId := [⟨1, [], false⟩, ⟨1, [], true⟩, ⟨2, [], false⟩, ⟨2, [], true⟩]

theorem simple_rounds {fmt : SimpleFormat} {checks : Bool} {ids : BSet sp.Id} {rng : sp.Rng} {sid : Bytes} {signer : sp.Signer}
    {s₀ s : Session (simple sp fmt checks).wrap} (h0 : Session.new rng sid signer (simpleEntry sp fmt checks ids) = .ok s₀)
    {a : Accum (simple sp fmt checks).wrap} (h : Reach s₀ (.running s a)) :
    s.transition.id ∈ simpleRounds ∧ ∀ r, Simultaneous s r → r ∈ simpleOpen := by
  obtain ⟨hp, -, -, -, hm⟩ := new_proper h0
  obtain ⟨trail, cached, rng', l, hv, hseq⟩ := reach_running h
  have hpr := (visits_inv hp hm hv).proper
  have main : ∀ t : TransitionInfo, s.transition = t → t.id ∈ simpleRounds → (∀ r, t.id.echo = .ok r → r ∈ simpleOpen) →
      (∀ r, t.parents.contains r = true → r ∈ simpleOpen) → (∀ r, t.siblings.contains r = true → r ∈ simpleOpen) →
      (∀ r, t.children.contains r = true → r ∈ simpleOpen) →
      s.transition.id ∈ simpleRounds ∧ ∀ r, Simultaneous s r → r ∈ simpleOpen := by
    rintro t rfl h1 h2 h3 h4 h5
    refine ⟨h1, fun r hr => ?_⟩
    unfold Simultaneous at hr
    rcases hr with hr | hr | hr
    · split at hr
      · exact h2 r hr
      · exact h3 r hr
    · exact h4 r hr
    · exact h5 r hr
  have mem : ∀ (q : BSet RoundId), (∀ r ∈ q.elems, r ∈ simpleOpen) → ∀ r, q.contains r = true → r ∈ simpleOpen :=
    fun q hq r hr => hq r (BSet.mem_elems.2 hr)
  rcases simple_visits h0 hv with h | ⟨e, h, he, -⟩ | ⟨sum, h, -⟩
  · exact main (linearInfo 1) (roundId_main hpr h).1 (by decide) (fun r hr => by cases hr; decide)
      (mem _ (by decide)) (mem _ (by decide)) (mem _ (by decide))
  · have ht := hpr.transition
    rw [h] at ht
    have ht' : mapErr (fun _ => LErr.panicMainIsEcho) ((simple sp fmt checks).wrap.transition e.main).echo = .ok s.transition := ht
    rw [he] at ht'
    have ht'' := (Except.ok.inj ht').symm
    exact main ⟨⟨1, [], true⟩, BSet.ofList [⟨1, [], false⟩], BMap.empty, (linearInfo 1).children, false⟩ ht'' (by decide)
      (fun r hr => by simp [RoundId.echo] at hr) (mem _ (by decide)) (mem _ (by decide)) (mem _ (by decide))
  · exact main (TransitionInfo.newLinearTerminating 2) (roundId_main hpr h).1 (by decide) (fun r hr => by cases hr; decide)
      (mem _ (by decide)) (mem _ (by decide)) (mem _ (by decide))

/-- **C67.**  For the simple test protocol: at most eleven entries in the accumulator, and at most eleven in the transcript, for
every party messages are given in the name of. -/
theorem C67_simple_partial {Q : sp.Id → Prop} {fmt : SimpleFormat} {checks : Bool} {ids : BSet sp.Id} {rng : sp.Rng} {sid : Bytes}
    {signer : sp.Signer} {s₀ s : Session (simple sp fmt checks).wrap} {a : Accum (simple sp fmt checks).wrap}
    (h0 : Session.new rng sid signer (simpleEntry sp fmt checks ids) = .ok s₀) (h : ReachBy Q s₀ (.running s a))
    {q : List sp.Id} (hq : ∀ x, Q x → x ∈ q) : a.entries ≤ q.length * 11 ∧ s.transcript.entries ≤ (q.length + 1) * 11 :=
  C67_bounded_partial h0 h hq (k := simpleOpen) (simple_rounds h0 h.reach).2 (rs := simpleRounds)
    (fun _ _ h' => (simple_rounds h0 h'.reach).1)

/-! ## C67 as stated fails -/

theorem steps_trans {st st' st'' : RunState P} (h : Steps st st') (h' : Steps st' st'') : Steps st st'' := by
  induction h' with
  | refl => exact h
  | step _ hs ih => exact .step ih hs

theorem reach_steps {s₀ : Session P} {st st' : RunState P} (h : Reach s₀ st) (h' : Steps st st') : Reach s₀ st' := by
  induction h' with
  | refl => exact h
  | step _ hs ih => exact .step ih hs

theorem step_deliver {s : Session P} {a a' : Accum P} {x : sp.Id} {m : Message sp} (hny : a.canFinalize = .notYet)
    (hd : deliver s a x m = .ok a') : Steps (.running s a) (.running s a') :=
  .step (ev := .deliver x m) (out := []) .refl (by simp [step, hny, hd])

/-- C67 as stated fails, for every session waiting for messages: properly signed messages for a simultaneous round are all kept,
whoever sends them. -/
theorem C67_flood_violation (mt : sp.MetaTotal) {s : Session P} (wf : EchoWellFormed s) {r : RoundId} (hs : Simultaneous s r)
    (hne : r ≠ s.transition.id) (l : List (sp.Id × Message sp)) (hnd : (l.map (·.1)).Nodup) {a : Accum P}
    (hny : a.canFinalize = .notYet)
    (hl : ∀ e ∈ l, ¬ HasError s a e.1 ∧ ¬ IsCached a e.1 r ∧ Authentic e.1 s.sessionId r e.2.direct e.2.echo e.2.normal) :
    ∃ a', Steps (.running s a) (.running s a') ∧ a'.canFinalize = .notYet ∧ (∀ e ∈ l, IsCached a' e.1 r) ∧
      l.length ≤ a'.entries := by
  have key : ∃ a', Steps (.running s a) (.running s a') ∧ a'.canFinalize = .notYet ∧
      ∀ x, IsCached a' x r ↔ IsCached a x r ∨ x ∈ l.map (·.1) := by
    induction l generalizing a with
    | nil => exact ⟨a, .refl, hny, by simp⟩
    | cons e l ih =>
      obtain ⟨x, m⟩ := e
      obtain ⟨h1, h2, h3⟩ := hl _ (List.mem_cons_self ..)
      simp only at h1 h2 h3
      have hmeta : m.direct.metadata = ⟨s.sessionId, r⟩ := h3.1.1
      have hrow : Row s a x m .keep :=
        .keep ⟨h1, authentic_coherent h3, by rw [hmeta], by rw [hmeta]; exact hne, by rw [hmeta]; exact hs⟩
          (by rw [hmeta]; exact h2) (by rw [hmeta]; exact h3)
      have hd : deliver s a x m = .ok (Verdict.effect a x m .keep).1 := by
        unfold deliver
        rw [C02_decision_table mt s wf a x m _ hrow]
        rfl
      simp only [List.map_cons, List.nodup_cons] at hnd
      have hca : ∀ y, IsCached (Verdict.effect a x m .keep).1 y r ↔ IsCached a y r ∨ y = x := by
        intro y
        unfold IsCached
        simp only [Verdict.effect, BMap.get?_insert]
        by_cases hy : y = x
        · subst hy
          simp [hmeta, BMap.get?_insert]
        · simp [hy]
      obtain ⟨a', k1, k2, k3⟩ := ih hnd.2 (a := (Verdict.effect a x m .keep).1) hny (fun e he => by
        obtain ⟨g1, g2, g3⟩ := hl e (List.mem_cons_of_mem _ he)
        refine ⟨g1, ?_, g3⟩
        rw [hca]
        rintro (g | g)
        · exact g2 g
        · exact hnd.1 (g ▸ List.mem_map.2 ⟨e, he, rfl⟩))
      refine ⟨a', steps_trans (step_deliver hny hd) k1, k2, ?_⟩
      intro y
      rw [k3, hca, List.map_cons, List.mem_cons]
      tauto
  obtain ⟨a', h1, h2, h3⟩ := key
  have h4 : ∀ e ∈ l, IsCached a' e.1 r := fun e he => (h3 e.1).2 (Or.inr (List.mem_map.2 ⟨e, he, rfl⟩))
  refine ⟨a', h1, h2, h4, ?_⟩
  have h5 : l.length ≤ a'.cached.total := by
    have h6 := BMap.le_total (q := l.map (·.1)) hnd (m := a'.cached) (fun x hx => by
      obtain ⟨e, he, rfl⟩ := List.mem_map.1 hx
      obtain ⟨m, v, hm, hv⟩ := h4 e he
      exact ⟨m, hm, r, BMap.contains_iff.2 ⟨v, hv⟩⟩)
    simpa using h6
  unfold Accum.entries
  omega

/-- C67 as stated fails, for every session waiting for messages: an error is recorded for every key a malformed message is given
in the name of. -/
theorem C67_errors_violation (mt : sp.MetaTotal) {s : Session P} (wf : EchoWellFormed s) (l : List (sp.Id × Message sp))
    (hnd : (l.map (·.1)).Nodup) {a : Accum P} (hny : a.canFinalize = .notYet)
    (hl : ∀ e ∈ l, ¬ HasError s a e.1 ∧ Incoherent e.2) :
    ∃ a', Steps (.running s a) (.running s a') ∧ a'.canFinalize = .notYet ∧
      (∀ e ∈ l, a'.unprovable.get? e.1 = some .metadata) ∧ l.length ≤ a'.entries := by
  have key : ∃ a', Steps (.running s a) (.running s a') ∧ a'.canFinalize = .notYet ∧
      ∀ x, a'.unprovable.get? x = if x ∈ l.map (·.1) then some .metadata else a.unprovable.get? x := by
    induction l generalizing a with
    | nil => exact ⟨a, .refl, hny, by simp⟩
    | cons e l ih =>
      obtain ⟨x, m⟩ := e
      obtain ⟨h1, h2⟩ := hl _ (List.mem_cons_self ..)
      simp only at h1 h2
      have hd : deliver s a x m = .ok (Verdict.effect a x m (.refuse .metadata)).1 := by
        unfold deliver
        rw [C02_decision_table mt s wf a x m _ (.metadata h1 h2)]
        rfl
      simp only [List.map_cons, List.nodup_cons] at hnd
      obtain ⟨a', k1, k2, k3⟩ := ih hnd.2 (a := (Verdict.effect a x m (.refuse .metadata)).1) hny (fun e he => by
        obtain ⟨g1, g2⟩ := hl e (List.mem_cons_of_mem _ he)
        refine ⟨?_, g2⟩
        have hne : e.1 ≠ x := fun g => hnd.1 (g ▸ List.mem_map.2 ⟨e, he, rfl⟩)
        intro g
        apply g1
        unfold HasError at g ⊢
        simpa only [Verdict.effect, BMap.get?_insert, hne, if_false] using g)
      refine ⟨a', steps_trans (step_deliver hny hd) k1, k2, ?_⟩
      intro y
      rw [k3, List.map_cons]
      simp only [Verdict.effect, BMap.get?_insert, List.mem_cons]
      by_cases hy : y ∈ l.map (·.1)
      · simp [hy]
      · by_cases hyx : y = x <;> simp [hy, hyx]
  obtain ⟨a', h1, h2, h3⟩ := key
  have h4 : ∀ e ∈ l, a'.unprovable.get? e.1 = some .metadata := fun e he => by
    rw [h3, if_pos (List.mem_map.2 ⟨e, he, rfl⟩)]
  refine ⟨a', h1, h2, h4, ?_⟩
  have h5 := nodup_length_le (q := a'.unprovable.toList.map (·.1)) hnd (fun x hx => by
    obtain ⟨e, he, rfl⟩ := List.mem_map.1 hx
    exact List.mem_map.2 ⟨_, BMap.mem_toList.2 (h4 e he), rfl⟩)
  have h6 : a'.unprovable.size = (a'.unprovable.toList.map (·.1)).length := by simp [BMap.size]
  rw [List.length_map, ← h6] at h5
  unfold Accum.entries
  omega

/-! ## An instance -/

/-- Ideal session parameters like `toy`, with infinitely many keys. -/
def natParams : SP where
  Id := Nat
  Signer := Nat
  Sig := Nat × Bytes
  Rng := Nat
  fork r i := r + i
  verifyingKey s := s
  hash b := b
  sign s _ d := .ok (s, d)
  verify who d s := decide (s = (who, d))
  serSig s := .ok ((Codec.prod Codec.varint Codec.bytes).enc s)
  deSig b :=
    match (Codec.prod Codec.varint Codec.bytes).dec b with
    | none => none
    | some (s, _) => some s
  serMeta m := .ok (Codec.metadata.enc m)
  serEchoSeq l := .ok ((Codec.list (Codec.prod Codec.varint Codec.signedHash)).enc l)
  deEchoSeq b :=
    match (Codec.list (Codec.prod Codec.varint Codec.signedHash)).dec b with
    | none => none
    | some (l, _) => some l

def floodEntry : EntryPoint (simple natParams simpleFmt true).wrap :=
  simpleEntry natParams simpleFmt true (BSet.ofList ([1, 2, 3] : List Nat))

theorem flood_start : ∃ s₀ a, Session.new (sp := natParams) (0 : Nat) [7] (1 : Nat) floodEntry = .ok s₀ ∧
    (start s₀ (0 : Nat)).1 = .running s₀ a ∧ a.canFinalize = .notYet ∧ s₀.sessionId = [7] ∧ s₀.transition = linearInfo 1 ∧
    s₀.transcript = Transcript.new ∧ a.provable = BMap.empty ∧ a.unprovable = BMap.empty ∧
    a.cached = BMap.empty ∧ s₀.round.comm.expecting.elems = ([2, 3] : List Nat) ∧
    s₀.destinations.elems = ([2, 3] : List Nat) := by
  refine ⟨_, _, rfl, rfl, ?_, rfl, rfl, rfl, rfl, rfl, rfl, rfl, rfl⟩
  rfl

theorem nat_signCorrect : natParams.SignCorrect := by
  intro s r d sig h
  cases h
  simp [natParams]

theorem nat_sigRoundTrip : natParams.SigRoundTrip := by
  intro s b h
  cases h
  have := Codec.prod_lawful Codec.varint_lawful Codec.bytes_lawful s []
  rw [List.append_nil] at this
  show (match (Codec.prod Codec.varint Codec.bytes).dec ((Codec.prod Codec.varint Codec.bytes).enc s) with
    | none => none
    | some (s, _) => some s) = some s
  rw [this]

theorem nat_metaTotal : natParams.MetaTotal := fun _ => ⟨_, rfl⟩

/-- Anybody can sign a message for the session `[7]` and any round. -/
theorem nat_part (x : Nat) (r : RoundId) (k : PartKind) : ∃ p : SignedPart k, AuthenticPart (sp := natParams) x [7] r p := by
  have : ∃ p, SignedPart.new natParams (0 : Nat) (x : Nat) [7] r (⟨none⟩ : Part k) = .ok p := ⟨_, rfl⟩
  obtain ⟨p, hp⟩ := this
  exact ⟨p, signed_valid nat_signCorrect nat_sigRoundTrip hp⟩

theorem nat_message (x : Nat) (r : RoundId) :
    ∃ m : Message natParams, Authentic (sp := natParams) x [7] r m.direct m.echo m.normal := by
  obtain ⟨d, hd⟩ := nat_part x r .direct
  obtain ⟨e, he⟩ := nat_part x r .echo
  obtain ⟨n, hn⟩ := nat_part x r .normal
  exact ⟨⟨(1 : Nat), d, e, n⟩, hd, he, hn⟩

theorem nat_bad (x : Nat) : ∃ m : Message natParams, Incoherent m := by
  obtain ⟨d, hd⟩ := nat_part x ⟨1, [], false⟩ .direct
  obtain ⟨e, he⟩ := nat_part x ⟨2, [], false⟩ .echo
  obtain ⟨n, -⟩ := nat_part x ⟨2, [], false⟩ .normal
  refine ⟨⟨(1 : Nat), d, e, n⟩, Or.inl ?_⟩
  show e.metadata ≠ d.metadata
  rw [hd.1, he.1]
  decide

/-- C67 as stated fails: a session of the simple test protocol with three parties, which expects messages of the parties 2 and 3,
keeps as many messages, and as many errors, as others care to send. -/
theorem C67_unbounded_violation : ∃ s₀ : Session (simple natParams simpleFmt true).wrap,
    Session.new (sp := natParams) (0 : Nat) [7] (1 : Nat) floodEntry = .ok s₀ ∧
    s₀.round.comm.expecting.elems = ([2, 3] : List Nat) ∧ ∀ n : Nat,
      (∃ a, Reach s₀ (.running s₀ a) ∧ n ≤ a.entries ∧ ∀ i, i < n → IsCached a (4 + i : Nat) ⟨2, [], false⟩) ∧
      ∃ a, Reach s₀ (.running s₀ a) ∧ n ≤ a.entries ∧ ∀ i, i < n → a.unprovable.get? (4 + i : Nat) = some .metadata := by
  obtain ⟨s₀, a, h1, h2, h3, h4, h5, h6, h7, h8, h9, h10, -⟩ := flood_start
  obtain ⟨hp, -⟩ := new_proper h1
  have wf := proper_wellFormed simple_mainIds hp
  have hs : Simultaneous s₀ ⟨2, [], false⟩ := by
    unfold Simultaneous
    rw [h5]
    exact Or.inr (Or.inr (by decide))
  have hr : Reach s₀ (.running s₀ a) := h2 ▸ Reach.start (s₀ := s₀) (0 : Nat)
  have ha : ∀ x, ¬ HasError s₀ a x := by
    intro x
    unfold HasError
    rw [h6, h7, h8]
    simp [Transcript.new]
  refine ⟨s₀, h1, h10, fun n => ⟨?_, ?_⟩⟩
  · choose f hf using nat_message
    let l : List (Nat × Message natParams) := (List.range n).map (fun i => (4 + i, f (4 + i) ⟨2, [], false⟩))
    have hl : l.map (·.1) = (List.range n).map (4 + ·) := by simp [l, List.map_map, Function.comp_def]
    have hlen : l.length = n := by simp [l]
    obtain ⟨a', k1, -, k2, k3⟩ := C67_flood_violation nat_metaTotal wf hs (by rw [h5]; decide) l
      (hl ▸ List.nodup_range.map (fun _ _ h => Nat.add_left_cancel h)) h3 (fun e he => by
        obtain ⟨i, -, rfl⟩ := List.mem_map.1 he
        refine ⟨ha _, ?_, ?_⟩
        · rintro ⟨e, m, h, -⟩
          rw [h9] at h
          cases h
        · rw [h4]
          exact hf _ _)
    refine ⟨a', reach_steps hr k1, hlen ▸ k3, fun i hi => ?_⟩
    exact k2 _ (List.mem_map.2 ⟨i, List.mem_range.2 hi, rfl⟩)
  · choose f hf using nat_bad
    let l : List (Nat × Message natParams) := (List.range n).map (fun i => (4 + i, f (4 + i)))
    have hl : l.map (·.1) = (List.range n).map (4 + ·) := by simp [l, List.map_map, Function.comp_def]
    have hlen : l.length = n := by simp [l]
    obtain ⟨a', k1, -, k2, k3⟩ := C67_errors_violation nat_metaTotal wf l
      (hl ▸ List.nodup_range.map (fun _ _ h => Nat.add_left_cancel h)) h3 (fun e he => by
        obtain ⟨i, -, rfl⟩ := List.mem_map.1 he
        exact ⟨ha _, hf _⟩)
    refine ⟨a', reach_steps hr k1, hlen ▸ k3, fun i hi => ?_⟩
    exact k2 _ (List.mem_map.2 ⟨i, List.mem_range.2 hi, rfl⟩)

/-- An instance of the bounds: whatever the parties 2 and 3 send to the session above, it keeps at most 22 entries in the accumulator and
33 in the transcript. -/
example : ∃ s₀ : Session (simple natParams simpleFmt true).wrap,
    Session.new (sp := natParams) (0 : Nat) [7] (1 : Nat) floodEntry = .ok s₀ ∧
    (∃ a, ReachBy (fun x : Nat => x = 2 ∨ x = 3) s₀ (.running s₀ a)) ∧
    ∀ s a, ReachBy (fun x : Nat => x = 2 ∨ x = 3) s₀ (.running s a) → a.entries ≤ 22 ∧ s.transcript.entries ≤ 33 := by
  obtain ⟨s₀, a, h1, h2, -⟩ := flood_start
  refine ⟨s₀, h1, ⟨a, h2 ▸ ReachBy.start (sp := natParams) (s₀ := s₀) (0 : Nat)⟩, fun s a h => ?_⟩
  exact C67_simple_partial h1 h (q := ([2, 3] : List Nat)) (by
    rintro x (rfl | rfl)
    · exact List.mem_cons_self ..
    · exact List.mem_cons_of_mem _ (List.mem_cons_self ..))

end Manul
