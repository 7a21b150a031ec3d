import Verif.Lemmas.AccumInv
import Verif.Spec.Par

/-!
# Parallel and sequential processing compared
-/

namespace Manul

variable {sp : SP} {P : Proto sp}

theorem foldE_append {ε σ α : Type} (f : σ → α → Except ε σ) (s t : σ) (l l' : List α) :
    foldE f s (l ++ l') = .ok t ↔ ∃ u, foldE f s l = .ok u ∧ foldE f u l' = .ok t := by
  induction l generalizing s with
  | nil => simp [foldE]
  | cons x l ih =>
    simp only [List.cons_append, foldE]
    cases f s x with
    | error e => simp
    | ok s' => exact ih s'

theorem foldE_map {ε σ α β : Type} (f : σ → β → Except ε σ) (g : α → β) (s : σ) (l : List α) :
    foldE f s (l.map g) = foldE (fun s x => f s (g x)) s l := by
  induction l generalizing s with
  | nil => rfl
  | cons x l ih =>
    simp only [List.map_cons, foldE]
    cases f s (g x) with
    | error e => rfl
    | ok s' => exact ih s'

/-- A creation task with its destination. -/
abbrev OutTask (P : Proto sp) := sp.Id × Except LErr (Message sp × ProcessedArtifact P)

/-- Whose artifact it is. -/
def outParty (o : OutTask P) : sp.Id :=
  match o.2 with
  | .ok (_, art) => art.destination
  | .error _ => o.1

/-- Add the artifact of a creation task. -/
def outApply (a : Accum P) (o : OutTask P) : Except LErr (Accum P) :=
  match o.2 with
  | .ok (_, art) => a.addArtifact art
  | .error e => .error e

/-- The same on the party's part. -/
def outLoc (l : Loc P) (o : OutTask P) : Except LErr (Loc P) :=
  match o.2 with
  | .ok (_, art) => Loc.art art l
  | .error e => .error e

theorem outApply_loc (a : Accum P) (o : OutTask P) : outApply a o = liftLoc a (outParty o) (outLoc (a.loc (outParty o)) o) := by
  unfold outApply outParty outLoc
  obtain ⟨d, r⟩ := o
  cases r with
  | error e => rfl
  | ok r => exact addArtifact_loc _

theorem parJoin_iff {st : ParSt P} {a : Accum P} : parJoin st = .ok a ↔ foldE outApply st.accum st.outgoing = .ok a := by
  obtain ⟨acc, ts, out⟩ := st
  unfold parJoin
  simp only
  induction out generalizing acc with
  | nil => simp [mapE, foldE]
  | cons o out ih =>
    obtain ⟨d, r⟩ := o
    cases r with
    | error e => simp [mapE, foldE, outApply]
    | ok r =>
      obtain ⟨m, art⟩ := r
      simp only [mapE, foldE, outApply]
      cases hm : mapE (fun x : OutTask P => x.2) out with
      | error e =>
        simp only [reduceCtorEq, false_iff]
        cases ha : acc.addArtifact art with
        | error e => simp
        | ok a' =>
          have := ih a'
          simp only [hm, reduceCtorEq, false_iff] at this
          exact this
      | ok l =>
        simp only [foldE]
        cases ha : acc.addArtifact art with
        | error e => simp
        | ok a' =>
          have := ih a'
          simp only [hm] at this
          exact this

theorem sendAll_iff {s : Session P} {rng : sp.Rng} {i : Nat} {a a' : Accum P} {ds : List sp.Id} :
    (∃ ms, sendAll s rng i a ds = .ok (a', ms)) ↔ foldE outApply a (creationTasks s rng i ds) = .ok a' := by
  induction ds generalizing i a with
  | nil => simp [sendAll, creationTasks, foldE]
  | cons d ds ih =>
    simp only [sendAll, creationTasks, foldE, outApply]
    cases hm : s.makeMessage (sp.fork rng i) d with
    | error e => simp
    | ok r =>
      obtain ⟨m, art⟩ := r
      simp only
      cases ha : a.addArtifact art with
      | error e => simp
      | ok a1 =>
        simp only
        rw [← ih]
        cases hs : sendAll s rng (i + 1) a1 ds with
        | error e => simp
        | ok r =>
          obtain ⟨a2, ms⟩ := r
          simp

theorem creation_party {s : Session P} {rng : sp.Rng} {i : Nat} {ds : List sp.Id} :
    (creationTasks s rng i ds).map outParty = ds := by
  induction ds generalizing i with
  | nil => rfl
  | cons d ds ih =>
    simp only [creationTasks, List.map_cons, ih, List.cons.injEq, and_true]
    unfold outParty
    cases hm : s.makeMessage (sp.fork rng i) d with
    | error e => rfl
    | ok r =>
      obtain ⟨m, art⟩ := r
      unfold Session.makeMessage at hm
      cases h1 : s.round.makeDirect (sp.fork (sp.fork rng i) 0) d with
      | error e => simp [h1] at hm
      | ok r1 =>
        simp only [h1] at hm
        split at hm
        · simp at hm
        · simp only [Except.ok.injEq, Prod.mk.injEq] at hm
          rw [← hm.2]

/-- A sequential step of a round. -/
inductive SeqOp (P : Proto sp) where
  | out (o : OutTask P)
  | add (m : VerifiedMessage sp)
  | del (x : sp.Id) (m : Message sp)

namespace SeqOp

/-- The party concerned. -/
def party : SeqOp P → sp.Id
  | .out o => outParty o
  | .add m => m.sender
  | .del x _ => x

/-- Its effect. -/
def apply (s : Session P) (a : Accum P) : SeqOp P → Except LErr (Accum P)
  | .out o => outApply a o
  | .add m => applyVerified s a m
  | .del x m => deliver s a x m

/-- Its effect on the party's part. -/
def loc (s : Session P) (l : Loc P) : SeqOp P → Except LErr (Loc P)
  | .out o => outLoc l o
  | .add m => Loc.add s.transcript (s.process m) l
  | .del x m => Loc.deliver s x m l

theorem apply_loc (s : Session P) (a : Accum P) (op : SeqOp P) :
    op.apply s a = liftLoc a op.party (op.loc s (a.loc op.party)) := by
  cases op with
  | out o => exact outApply_loc a o
  | add m => exact addProcessed_loc _ _
  | del x m => exact deliver_loc s a x m

end SeqOp

/-- All steps of the round in the sequential order. -/
def seqOps (s : Session P) (rng : sp.Rng) (cached : List (VerifiedMessage sp)) (l : List (sp.Id × Message sp)) :
    List (SeqOp P) :=
  (creationTasks s rng 0 s.destinations.elems).map .out ++ cached.map .add ++ l.map (fun x => .del x.1 x.2)

theorem seqRound_iff {s : Session P} {rng : sp.Rng} {cached : List (VerifiedMessage sp)}
    {l : List (sp.Id × Message sp)} {b : Accum P} :
    SeqRound s rng cached l b ↔ foldE (SeqOp.apply s) s.makeAccum (seqOps s rng cached l) = .ok b := by
  unfold SeqRound seqOps startRound Deliveries
  simp only [foldE_append, foldE_map]
  constructor
  · rintro ⟨a, out, h1, h2⟩
    cases hs : sendAll s rng 0 s.makeAccum s.destinations.elems with
    | error e => simp [hs] at h1
    | ok r =>
      obtain ⟨a1, ms⟩ := r
      simp only [hs] at h1
      cases hf : foldE (applyVerified s) a1 cached with
      | error e => simp [hf] at h1
      | ok a2 =>
        simp only [hf, Except.ok.injEq, Prod.mk.injEq] at h1
        obtain ⟨rfl, rfl⟩ := h1
        exact ⟨a2, ⟨a1, sendAll_iff.1 ⟨ms, hs⟩, hf⟩, h2⟩
  · rintro ⟨a2, ⟨a1, h1, h2⟩, h3⟩
    obtain ⟨ms, hs⟩ := sendAll_iff.2 h1
    have h2 : foldE (applyVerified s) a1 cached = .ok a2 := h2
    exact ⟨a2, ms, by simp [hs, h2], h3⟩

/-! ## Artifacts are independent of the rest -/

/-- Replace the artifact. -/
def Loc.withArt (l : Loc P) (v : Option (Option P.Artifact)) : Loc P := { l with artifact := v }

/-- The computation neither reads nor writes the artifact. -/
def ArtFree (f : Loc P → Except LErr (Loc P)) : Prop :=
  ∀ l l', f l = .ok l' ↔ l'.artifact = l.artifact ∧ ∀ v, f (l.withArt v) = .ok (l'.withArt v)

theorem withArt_withArt (l : Loc P) (v w : Option (Option P.Artifact)) : (l.withArt v).withArt w = l.withArt w := rfl

theorem withArt_self (l : Loc P) : l.withArt l.artifact = l := rfl

theorem artFree_of {f : Loc P → Except LErr (Loc P)}
    (h : ∀ l v l', f l = .ok l' → f (l.withArt v) = .ok (l'.withArt v))
    (h' : ∀ l l', f l = .ok l' → l'.artifact = l.artifact) : ArtFree f := by
  intro l l'
  constructor
  · intro hl
    exact ⟨h' _ _ hl, fun v => h _ _ _ hl⟩
  · rintro ⟨h1, h2⟩
    have := h2 l.artifact
    rw [withArt_self, ← h1, withArt_self] at this
    exact this

theorem prove_withArt (l : Loc P) (e : Evidence sp) (v : Option (Option P.Artifact)) :
    (l.withArt v).prove e = (match l.prove e with | .ok l' => .ok (l'.withArt v) | .error e => .error e) := by
  unfold Loc.prove Loc.withArt
  simp only
  split <;> simp_all

theorem add_artFree (t : Transcript sp) (p : Processed P) : ArtFree (Loc.add t p) := by
  apply artFree_of
  · intro l v l' h
    unfold Loc.add at h ⊢
    have h1 : (l.withArt v).payload = l.payload := rfl
    have h2 : (l.withArt v).notSent = l.notSent := rfl
    have h3 : ({ l.withArt v with notSent := false } : Loc P) = ({ l with notSent := false } : Loc P).withArt v := rfl
    simp only [h1, h2] at h ⊢
    split at h
    · simp at h
    · split at h
      · simp at h
      · rename_i hc1 hc2
        rw [if_neg hc1, if_neg hc2]
        cases hr : p.result with
        | ok w =>
          simp only [hr, Except.ok.injEq] at h ⊢
          subst h
          rfl
        | error e =>
          have hp : ∀ (ev : Evidence sp), ({ l with notSent := false } : Loc P).prove ev = .ok l' →
              ({ l.withArt v with notSent := false } : Loc P).prove ev = .ok (l'.withArt v) := by
            intro ev hev
            rw [h3, prove_withArt, hev]
          cases e with
          | «local» e => simp [hr] at h
          | invalidDirect => simp only [hr] at h; exact hp _ h
          | invalidEcho => simp only [hr] at h; exact hp _ h
          | invalidNormal => simp only [hr] at h; exact hp _ h
          | protocol req ser =>
            simp only [hr] at h ⊢
            cases hev : Evidence.newProvableError p.message.sender p.message.echo p.message.normal p.message.direct req
                ser t with
            | error e => simp [hev] at h
            | ok ev => simp only [hev] at h ⊢; exact hp _ h
          | unprovable e =>
            simp only [hr, Except.ok.injEq] at h ⊢
            subst h
            rfl
          | echo e => simp only [hr] at h; exact hp _ h
  · intro l l' h
    cases (add_ok h).2.2 <;> rfl

theorem refuse_withArt (l : Loc P) (e : RErr) (v : Option (Option P.Artifact)) :
    (l.withArt v).refuse e =
      (match l.refuse e with | .ok (l', o) => .ok (l'.withArt v, o) | .error e => .error e) := by
  unfold Loc.refuse Loc.withArt
  simp only
  split <;> simp_all

theorem route_withArt (l : Loc P) (x : sp.Id) (c : CheckedMessage) (b : Bool) (v : Option (Option P.Artifact)) :
    (l.withArt v).route x c b =
      (match l.route x c b with | .ok (l', o) => .ok (l'.withArt v, o) | .error e => .error e) := by
  unfold Loc.route
  cases c.verify sp x with
  | error e =>
    cases e with
    | «local» e => rfl
    | invalidSignature => exact refuse_withArt _ _ _
    | signatureMismatch => exact refuse_withArt _ _ _
  | ok vm =>
    have h1 : (l.withArt v).processing = l.processing := rfl
    have h2 : (l.withArt v).cached = l.cached := rfl
    simp only [h1, h2]
    by_cases hb : b = true
    · simp only [hb, if_true]
      by_cases hp : l.processing = true <;> simp [hp, Loc.withArt]
    · simp only [hb, Bool.false_eq_true, if_false]
      by_cases hp : (l.cached.getD BMap.empty).contains vm.metadata.roundId = true <;> simp [hp, Loc.withArt]

theorem pre_withArt (s : Session P) (x : sp.Id) (m : Message sp) (l : Loc P) (v : Option (Option P.Artifact)) :
    Loc.pre s x m (l.withArt v) =
      (match Loc.pre s x m l with | .ok (l', o) => .ok (l'.withArt v, o) | .error e => .error e) := by
  unfold Loc.pre
  have h1 : (l.withArt v).banned = l.banned := rfl
  have h2 : (l.withArt v).processing = l.processing := rfl
  have h3 : ∀ r, (l.withArt v).isCached r = l.isCached r := fun _ => rfl
  simp only [h1, h2, h3]
  by_cases hb : (s.transcript.isBanned x || l.banned) = true
  · simp only [hb, if_true]
  · simp only [hb, Bool.false_eq_true, if_false]
    cases m.unifyMetadata with
    | none => exact refuse_withArt _ _ _
    | some c =>
      simp only
      by_cases hs : c.metadata.sessionId ≠ s.sessionId
      · rw [if_pos hs, if_pos hs]; exact refuse_withArt _ _ _
      · rw [if_neg hs, if_neg hs]
        cases s.transition.simultaneousRounds s.echoInfo.isSome with
        | error e => rfl
        | ok acc =>
          simp only
          by_cases hr : c.metadata.roundId = s.roundId
          · simp only [hr, if_true]
            by_cases hp : l.processing = true
            · simp only [hp, if_true]; exact refuse_withArt _ _ _
            · simp only [hp, Bool.false_eq_true, if_false]; exact route_withArt _ _ _ _ _
          · simp only [hr, if_false]
            by_cases ha : acc.contains c.metadata.roundId = true
            · simp only [ha, if_true]
              by_cases hc : l.isCached c.metadata.roundId = true
              · simp only [hc, if_true]; exact refuse_withArt _ _ _
              · simp only [hc, Bool.false_eq_true, if_false]; exact route_withArt _ _ _ _ _
            · simp only [ha, Bool.false_eq_true, if_false]; exact refuse_withArt _ _ _

theorem pre_artifact {s : Session P} {x : sp.Id} {m : Message sp} {l : Loc P} {r : Loc P × PreOutcome sp}
    (h : Loc.pre s x m l = .ok r) : r.1.artifact = l.artifact := by
  cases pre_ok h <;> rfl

theorem deliver_artFree (s : Session P) (x : sp.Id) (m : Message sp) : ArtFree (Loc.deliver s x m) := by
  apply artFree_of
  · intro l v l' h
    unfold Loc.deliver at h ⊢
    rw [pre_withArt]
    cases hp : Loc.pre s x m l with
    | error e => simp [hp] at h
    | ok r =>
      obtain ⟨l1, o⟩ := r
      simp only [hp] at h ⊢
      cases ho : o.ok? with
      | none =>
        simp only [ho, Except.ok.injEq] at h ⊢
        rw [h]
      | some vm =>
        simp only [ho] at h ⊢
        exact ((add_artFree _ _ _ _).1 h).2 v
  · intro l l' h
    unfold Loc.deliver at h
    cases hp : Loc.pre s x m l with
    | error e => simp [hp] at h
    | ok r =>
      obtain ⟨l1, o⟩ := r
      have h1 := pre_artifact hp
      simp only [hp] at h
      cases ho : o.ok? with
      | none =>
        simp only [ho, Except.ok.injEq] at h
        rw [← h]
        exact h1
      | some vm =>
        simp only [ho] at h
        rw [((add_artFree _ _ _ _).1 h).1]
        exact h1

theorem foldE_artFree {α : Type} {f : Loc P → α → Except LErr (Loc P)} (hf : ∀ x, ArtFree (fun l => f l x))
    (l : List α) : ArtFree (fun s => foldE f s l) := by
  induction l with
  | nil =>
    apply artFree_of
    · intro l v l' h
      simp only [foldE, Except.ok.injEq] at h ⊢
      rw [h]
    · intro l l' h
      simp only [foldE, Except.ok.injEq] at h
      rw [h]
  | cons x r ih =>
    apply artFree_of
    · intro l v l' h
      simp only [foldE] at h ⊢
      cases h1 : f l x with
      | error e => simp [h1] at h
      | ok l1 =>
        simp only [h1] at h
        have := ((hf x l l1).1 h1).2 v
        simp only at this
        rw [this]
        exact ((ih l1 l').1 h).2 v
    · intro l l' h
      simp only [foldE] at h
      cases h1 : f l x with
      | error e => simp [h1] at h
      | ok l1 =>
        simp only [h1] at h
        rw [((ih l1 l').1 h).1]
        exact ((hf x l l1).1 h1).1

theorem outLoc_ok {l l' : Loc P} {o : OutTask P} :
    outLoc l o = .ok l' ↔ ∃ m art, o.2 = .ok (m, art) ∧ l.artifact = none ∧ l' = l.withArt (some art.artifact) := by
  unfold outLoc
  obtain ⟨d, r⟩ := o
  cases r with
  | error e => simp
  | ok r =>
    obtain ⟨m, art⟩ := r
    simp only [Loc.art, Except.ok.injEq, Prod.mk.injEq]
    cases ha : l.artifact with
    | some v => simp
    | none =>
      simp only [Option.isSome_none, Bool.false_eq_true, if_false, Except.ok.injEq, true_and]
      constructor
      · rintro rfl
        exact ⟨m, art, ⟨rfl, rfl⟩, rfl⟩
      · rintro ⟨_, _, ⟨rfl, rfl⟩, rfl⟩
        rfl

/-- A step on the artifact and a step on the rest can be exchanged. -/
theorem out_comm {f : Loc P → Except LErr (Loc P)} (hf : ArtFree f) (o : OutTask P) (l l' : Loc P) :
    (∃ u, outLoc l o = .ok u ∧ f u = .ok l') ↔ (∃ u, f l = .ok u ∧ outLoc u o = .ok l') := by
  constructor
  · rintro ⟨u, h1, h2⟩
    obtain ⟨m, art, ho, hn, rfl⟩ := outLoc_ok.1 h1
    have h3 := (hf _ _).1 h2
    have h4 := h3.2 l.artifact
    rw [withArt_withArt, withArt_self] at h4
    refine ⟨_, h4, outLoc_ok.2 ⟨m, art, ho, hn, ?_⟩⟩
    rw [withArt_withArt]
    have h5 : l'.artifact = some art.artifact := h3.1
    rw [← h5, withArt_self]
  · rintro ⟨u, h1, h2⟩
    obtain ⟨m, art, ho, hn, rfl⟩ := outLoc_ok.1 h2
    have h3 := (hf _ _).1 h1
    refine ⟨_, outLoc_ok.2 ⟨m, art, ho, ?_, rfl⟩, h3.2 _⟩
    rw [← h3.1]
    exact hn

theorem outs_comm {f : Loc P → Except LErr (Loc P)} (hf : ArtFree f) (os : List (OutTask P)) (l l' : Loc P) :
    (∃ u, foldE outLoc l os = .ok u ∧ f u = .ok l') ↔ (∃ u, f l = .ok u ∧ foldE outLoc u os = .ok l') := by
  induction os generalizing l with
  | nil => simp [foldE]
  | cons o os ih =>
    have e1 : ∀ (l v : Loc P), foldE outLoc l (o :: os) = .ok v ↔
        ∃ w, outLoc l o = .ok w ∧ foldE outLoc w os = .ok v := by
      intro l v
      simp only [foldE]
      cases outLoc l o with
      | error e => simp
      | ok w => simp
    constructor
    · rintro ⟨u, h1, h2⟩
      obtain ⟨w, h3, h4⟩ := (e1 _ _).1 h1
      obtain ⟨u', h5, h6⟩ := (ih w).1 ⟨u, h4, h2⟩
      obtain ⟨w', h7, h8⟩ := (out_comm hf o l u').1 ⟨w, h3, h5⟩
      exact ⟨w', h7, (e1 _ _).2 ⟨u', h8, h6⟩⟩
    · rintro ⟨u, h1, h2⟩
      obtain ⟨w, h3, h4⟩ := (e1 _ _).1 h2
      obtain ⟨w', h7, h8⟩ := (out_comm hf o l w).2 ⟨u, h1, h3⟩
      obtain ⟨u', h5, h6⟩ := (ih w').2 ⟨w, h8, h4⟩
      exact ⟨u', (e1 _ _).2 ⟨w', h7, h5⟩, h6⟩

/-! ## The simulation -/

/-- What remains to be done for a party, applied to its part. -/
def Pending (s : Session P) (st : ParSt P) (x : sp.Id) (l : Loc P) : Prop :=
  ∃ u, foldE (fun l m => Loc.add s.transcript (s.process m) l) (st.accum.loc x)
      (st.tasks.filter (fun m => m.sender = x)) = .ok u ∧
    foldE outLoc u (st.outgoing.filter (fun o => outParty o = x)) = .ok l

/-- The party's part in the sequential round. -/
def SeqLoc (s : Session P) (rng : sp.Rng) (cached : List (VerifiedMessage sp)) (l : List (sp.Id × Message sp))
    (x : sp.Id) (r : Loc P) : Prop :=
  foldE (SeqOp.loc s) (s.makeAccum.loc x) ((seqOps s rng cached l).filter (fun o => o.party = x)) = .ok r

/-- The simulation. -/
structure ParSim (s : Session P) (rng : sp.Rng) (cached : List (VerifiedMessage sp)) (l : List (sp.Id × Message sp))
    (st : ParSt P) : Prop where
  expecting : st.accum.expecting = s.comm.expecting
  outs : (st.outgoing.map outParty).Nodup
  tasks : (st.tasks.map (fun m => m.sender)).Nodup
  same : ∀ x r, Pending s st x r ↔ SeqLoc s rng cached l x r

/-- The invariant for distinct senders. -/
structure ParInv (s : Session P) (rng : sp.Rng) (cached : List (VerifiedMessage sp)) (l : List (sp.Id × Message sp))
    (st : ParSt P) : Prop extends ParSim s rng cached l st where
  seen : ∀ m ∈ st.tasks, m.sender ∈ cached.map (fun m => m.sender) ++ l.map Prod.fst

/-- Replace what is written when a payload is added. -/
def Loc.graft (l w : Loc P) : Loc P :=
  { l with notSent := w.notSent, payload := w.payload, echo := w.echo, normal := w.normal, direct := w.direct }

theorem refuse_graft (l w : Loc P) (e : RErr) :
    (l.graft w).refuse e =
      (match l.refuse e with | .ok (l', o) => .ok (l'.graft w, o) | .error e => .error e) := by
  unfold Loc.refuse Loc.graft
  simp only
  split <;> simp_all

theorem route_graft (l w : Loc P) (x : sp.Id) (c : CheckedMessage) (b : Bool) :
    (l.graft w).route x c b =
      (match l.route x c b with | .ok (l', o) => .ok (l'.graft w, o) | .error e => .error e) := by
  unfold Loc.route
  cases c.verify sp x with
  | error e =>
    cases e with
    | «local» e => rfl
    | invalidSignature => exact refuse_graft _ _ _
    | signatureMismatch => exact refuse_graft _ _ _
  | ok vm =>
    have h1 : (l.graft w).processing = l.processing := rfl
    have h2 : (l.graft w).cached = l.cached := rfl
    simp only [h1, h2]
    by_cases hb : b = true
    · simp only [hb, if_true]
      by_cases hp : l.processing = true <;> simp [hp, Loc.graft]
    · simp only [hb, Bool.false_eq_true, if_false]
      by_cases hp : (l.cached.getD BMap.empty).contains vm.metadata.roundId = true <;> simp [hp, Loc.graft]

theorem pre_graft (s : Session P) (x : sp.Id) (m : Message sp) (l w : Loc P) :
    Loc.pre s x m (l.graft w) =
      (match Loc.pre s x m l with | .ok (l', o) => .ok (l'.graft w, o) | .error e => .error e) := by
  unfold Loc.pre
  have h1 : (l.graft w).banned = l.banned := rfl
  have h2 : (l.graft w).processing = l.processing := rfl
  have h3 : ∀ r, (l.graft w).isCached r = l.isCached r := fun _ => rfl
  simp only [h1, h2, h3]
  by_cases hb : (s.transcript.isBanned x || l.banned) = true
  · simp only [hb, if_true]
  · simp only [hb, Bool.false_eq_true, if_false]
    cases m.unifyMetadata with
    | none => exact refuse_graft _ _ _
    | some c =>
      simp only
      by_cases hs : c.metadata.sessionId ≠ s.sessionId
      · rw [if_pos hs, if_pos hs]; exact refuse_graft _ _ _
      · rw [if_neg hs, if_neg hs]
        cases s.transition.simultaneousRounds s.echoInfo.isSome with
        | error e => rfl
        | ok acc =>
          simp only
          by_cases hr : c.metadata.roundId = s.roundId
          · simp only [hr, if_true]
            by_cases hp : l.processing = true
            · simp only [hp, if_true]; exact refuse_graft _ _ _
            · simp only [hp, Bool.false_eq_true, if_false]; exact route_graft _ _ _ _ _
          · simp only [hr, if_false]
            by_cases ha : acc.contains c.metadata.roundId = true
            · simp only [ha, if_true]
              by_cases hc : l.isCached c.metadata.roundId = true
              · simp only [hc, if_true]; exact refuse_graft _ _ _
              · simp only [hc, Bool.false_eq_true, if_false]; exact route_graft _ _ _ _ _
            · simp only [ha, Bool.false_eq_true, if_false]; exact refuse_graft _ _ _

/-- The part after adding a payload. -/
def Loc.withPayload (p : Processed P) (v : Option P.Payload) (l : Loc P) : Loc P :=
  { l with
    notSent := false
    echo := Loc.storePart l.echo p.message.echo
    normal := Loc.storePart l.normal p.message.normal
    direct := Loc.storePart l.direct p.message.direct
    payload := some v }

theorem add_payload {t : Transcript sp} {p : Processed P} {v : Option P.Payload} (hr : p.result = .ok v) {l l' : Loc P} :
    Loc.add t p l = .ok l' ↔ l.payload = none ∧ l.notSent = true ∧ l' = l.withPayload p v := by
  constructor
  · intro h
    obtain ⟨h1, h2, h3⟩ := add_ok h
    refine ⟨h1, h2, ?_⟩
    cases h3 with
    | payload h4 =>
      rw [hr] at h4
      simp only [Except.ok.injEq] at h4
      subst h4
      rfl
    | provable _ h4 => cases h4 <;> simp_all
    | unprovable h4 => simp_all
  · rintro ⟨h1, h2, rfl⟩
    unfold Loc.add
    simp only [h1, h2, hr, Option.isSome_none, Bool.false_eq_true, if_false]
    simp [Loc.withPayload]

theorem pre_untouched {s : Session P} {x : sp.Id} {m : Message sp} {l : Loc P} {r : Loc P × PreOutcome sp}
    (h : Loc.pre s x m l = .ok r) : r.1 = r.1.graft l := by
  cases pre_ok h <;> rfl

/-- Adding a payload and preprocessing a message that is not for this round can be exchanged. -/
theorem pre_add_comm {s : Session P} {x : sp.Id} {m : Message sp} {vm : VerifiedMessage sp} {v : Option P.Payload}
    (hr : (s.process vm).result = .ok v) {l l1 : Loc P} {o : PreOutcome sp} (hp : Loc.pre s x m l = .ok (l1, o))
    (ho : o.ok? = none) (r : Loc P) :
    Loc.add s.transcript (s.process vm) l1 = .ok r ↔
      ∃ u, Loc.add s.transcript (s.process vm) l = .ok u ∧ Loc.deliver s x m u = .ok r := by
  have h1 : l1 = l1.graft l := pre_untouched hp
  have e1 : l1.payload = l.payload := by rw [h1]; rfl
  have e2 : l1.notSent = l.notSent := by rw [h1]; rfl
  have e3 : l1.withPayload (s.process vm) v = l1.graft (l.withPayload (s.process vm) v) := by
    rw [h1]; rfl
  have e4 : l.withPayload (s.process vm) v = l.graft (l.withPayload (s.process vm) v) := rfl
  rw [add_payload hr, e1, e2]
  have hd : Loc.deliver s x m (l.withPayload (s.process vm) v) = .ok (l1.withPayload (s.process vm) v) := by
    unfold Loc.deliver
    rw [e4, pre_graft, hp, e3]
    simp only [ho]
  constructor
  · rintro ⟨h2, h3, rfl⟩
    exact ⟨_, (add_payload hr).2 ⟨h2, h3, rfl⟩, hd⟩
  · rintro ⟨u, h2, h3⟩
    obtain ⟨h4, h5, rfl⟩ := (add_payload hr).1 h2
    rw [hd] at h3
    simp only [Except.ok.injEq] at h3
    exact ⟨h4, h5, h3.symm⟩

theorem add_artFree' (s : Session P) (l : List (VerifiedMessage sp)) :
    ArtFree (fun u : Loc P => foldE (fun l m => Loc.add s.transcript (s.process m) l) u l) :=
  foldE_artFree (fun m => add_artFree s.transcript (s.process m)) l

theorem seqLoc_split {s : Session P} {rng : sp.Rng} {cached : List (VerifiedMessage sp)}
    {l : List (sp.Id × Message sp)} {x : sp.Id} {r : Loc P} :
    SeqLoc s rng cached l x r ↔
      ∃ v, (∃ u, foldE outLoc (s.makeAccum.loc x)
          ((creationTasks s rng 0 s.destinations.elems).filter (fun o => outParty o = x)) = .ok u ∧
        foldE (fun l m => Loc.add s.transcript (s.process m) l) u (cached.filter (fun m => m.sender = x)) = .ok v) ∧
        foldE (fun l y => Loc.deliver s y.1 y.2 l) v (l.filter (fun y => y.1 = x)) = .ok r := by
  unfold SeqLoc seqOps
  rw [List.filter_append, List.filter_append, foldE_append]
  simp only [foldE_append, List.filter_map, foldE_map]
  rfl

theorem sim_begin {s : Session P} {rng : sp.Rng} {cached : List (VerifiedMessage sp)}
    (hc : (cached.map (fun m => m.sender)).Nodup) : ParSim s rng cached [] (ParSt.begin s rng cached) where
  expecting := rfl
  outs := by
    simp only [ParSt.begin, creation_party]
    exact BSet.elems_nodup _
  tasks := hc
  same := by
    intro x r
    rw [seqLoc_split]
    unfold Pending ParSt.begin
    simp only [List.filter_nil, foldE, Except.ok.injEq, exists_eq_right]
    exact (outs_comm (add_artFree' s _) _ _ _).symm

theorem inv_begin {s : Session P} {rng : sp.Rng} {cached : List (VerifiedMessage sp)}
    (hc : (cached.map (fun m => m.sender)).Nodup) : ParInv s rng cached [] (ParSt.begin s rng cached) where
  toParSim := sim_begin hc
  seen := fun m hm => List.mem_append_left _ (List.mem_map.2 ⟨m, hm, rfl⟩)

theorem seqLoc_snoc {s : Session P} {rng : sp.Rng} {cached : List (VerifiedMessage sp)}
    {l : List (sp.Id × Message sp)} {y : sp.Id} {m : Message sp} {x : sp.Id} {r : Loc P} :
    SeqLoc s rng cached (l ++ [(y, m)]) x r ↔
      if y = x then ∃ u, SeqLoc s rng cached l x u ∧ Loc.deliver s x m u = .ok r else SeqLoc s rng cached l x r := by
  unfold SeqLoc seqOps
  rw [List.map_append, ← List.append_assoc, List.filter_append, foldE_append]
  by_cases h : y = x
  · subst h
    simp only [List.map_cons, List.map_nil, SeqOp.party, List.filter_cons, decide_true, if_true, List.filter_nil, foldE,
      SeqOp.loc]
    apply exists_congr
    intro u
    apply and_congr_right
    intro _
    cases Loc.deliver s y m u with
    | error e => simp
    | ok v => simp
  · simp [SeqOp.party, foldE, h]

theorem filter_nodup_idx {α β : Type} [DecidableEq β] (f : α → β) {l : List α} {i : Nat} {a : α}
    (hd : (l.map f).Nodup) (hi : l[i]? = some a) :
    l.filter (fun b => f b = f a) = [a] ∧ (l.eraseIdx i).filter (fun b => f b = f a) = [] ∧
      ∀ x, x ≠ f a → (l.eraseIdx i).filter (fun b => f b = x) = l.filter (fun b => f b = x) := by
  induction l generalizing i with
  | nil => simp at hi
  | cons b l ih =>
    simp only [List.map_cons, List.nodup_cons] at hd
    cases i with
    | zero =>
      simp only [List.getElem?_cons_zero, Option.some.injEq] at hi
      subst hi
      have hnone : l.filter (fun c => f c = f b) = [] := by
        rw [List.filter_eq_nil_iff]
        intro c hc hcb
        have hcb : f c = f b := by simpa using hcb
        exact hd.1 (hcb ▸ List.mem_map_of_mem hc)
      refine ⟨?_, ?_, ?_⟩
      · simp [hnone]
      · simpa using hnone
      · intro x hx
        simp [Ne.symm hx]
    | succ i =>
      simp only [List.getElem?_cons_succ] at hi
      obtain ⟨h1, h2, h3⟩ := ih hd.2 hi
      have hne : f b ≠ f a := by
        intro h
        exact hd.1 (h ▸ List.mem_map_of_mem (List.mem_of_getElem? hi))
      refine ⟨?_, ?_, ?_⟩
      · simp [hne, h1]
      · simp [hne, h2]
      · intro x hx
        simp only [List.eraseIdx_cons_succ, List.filter_cons, h3 x hx]

theorem map_eraseIdx_nodup {α β : Type} (f : α → β) {l : List α} {i : Nat} (hd : (l.map f).Nodup) :
    ((l.eraseIdx i).map f).Nodup :=
  hd.sublist (List.Sublist.map f (List.eraseIdx_sublist l i))

/-- The part of `OrderlyOp` that concerns messages being processed. -/
def Apart (s : Session P) (st : ParSt P) : ParOp sp → Prop
  | .deliver x m =>
    (∀ vm ∈ st.tasks, vm.sender = x → ∃ v, (s.process vm).result = .ok v) ∧
      ∀ a vm, s.preprocess st.accum x m = .ok (a, .toProcess vm) → ∀ vm ∈ st.tasks, vm.sender ≠ x
  | _ => True

theorem OrderlyOp.apart {s : Session P} {st : ParSt P} {op : ParOp sp} (h : OrderlyOp s st op) : Apart s st op := by
  cases op with
  | deliver x m => exact ⟨h.1, fun a vm hp => (h.2 a vm hp).2⟩
  | complete i => trivial
  | send i => trivial

/-- A step of the parallel driver simulates the sequential one. -/
theorem sim_step {s : Session P} {rng : sp.Rng} {cached : List (VerifiedMessage sp)}
    {l : List (sp.Id × Message sp)} {st st' : ParSt P} {op : ParOp sp} (hi : ParSim s rng cached l st)
    (hd : Apart s st op) (h : parOp s st op = .ok st') : ParSim s rng cached (l ++ parDeliveries [op]) st' := by
  cases op with
  | deliver x m =>
    simp only [parDeliveries]
    obtain ⟨hok, hnew⟩ := hd
    simp only [parOp] at h
    rw [preprocess_loc] at h hnew
    cases hp : Loc.pre s x m (st.accum.loc x) with
    | error e => simp [hp, liftLoc₂] at h
    | ok r =>
      obtain ⟨l1, o⟩ := r
      simp only [hp, liftLoc₂, Except.ok.injEq, Prod.mk.injEq] at h hnew
      have hstep : ∀ (st'' : ParSt P), st''.accum = st.accum.setLoc x l1 → st''.outgoing = st.outgoing →
          (∀ y, y ≠ x → st''.tasks.filter (fun m => m.sender = y) = st.tasks.filter (fun m => m.sender = y)) →
          (∀ r, foldE (fun l m => Loc.add s.transcript (s.process m) l) l1
              (st''.tasks.filter (fun m => m.sender = x)) = .ok r ↔
            ∃ u, foldE (fun l m => Loc.add s.transcript (s.process m) l) (st.accum.loc x)
              (st.tasks.filter (fun m => m.sender = x)) = .ok u ∧ Loc.deliver s x m u = .ok r) →
          ∀ y r, Pending s st'' y r ↔ SeqLoc s rng cached (l ++ [(x, m)]) y r := by
        intro st'' ha ho ht hx' y r
        rw [seqLoc_snoc]
        by_cases hy : x = y
        · subst hy
          rw [if_pos rfl]
          simp only [← hi.same]
          unfold Pending
          rw [ha, ho, Accum.loc_setLoc_same]
          simp only [hx']
          constructor
          · rintro ⟨u, ⟨v, h1, h2⟩, h3⟩
            obtain ⟨w, h4, h5⟩ := (outs_comm (deliver_artFree s x m) _ _ _).2 ⟨u, h2, h3⟩
            exact ⟨w, ⟨v, h1, h4⟩, h5⟩
          · rintro ⟨w, ⟨v, h1, h4⟩, h5⟩
            obtain ⟨u, h2, h3⟩ := (outs_comm (deliver_artFree s x m) _ _ _).1 ⟨w, h4, h5⟩
            exact ⟨u, ⟨v, h1, h2⟩, h3⟩
        · rw [if_neg hy, ← hi.same]
          unfold Pending
          rw [ha, ho, ht y (Ne.symm hy), Accum.loc_setLoc_other _ (Ne.symm hy)]
      have hkeep : o.ok? = none → ∀ r, foldE (fun l m => Loc.add s.transcript (s.process m) l) l1
              (st.tasks.filter (fun m => m.sender = x)) = .ok r ↔
            ∃ u, foldE (fun l m => Loc.add s.transcript (s.process m) l) (st.accum.loc x)
              (st.tasks.filter (fun m => m.sender = x)) = .ok u ∧ Loc.deliver s x m u = .ok r := by
        intro ho r
        by_cases hex : ∃ vm ∈ st.tasks, vm.sender = x
        · obtain ⟨vm, hvm, rfl⟩ := hex
          obtain ⟨i, hi'⟩ := List.getElem?_of_mem hvm
          obtain ⟨h1, -, -⟩ := filter_nodup_idx (fun m : VerifiedMessage sp => m.sender) hi.tasks hi'
          obtain ⟨v, hv⟩ := hok vm hvm rfl
          rw [h1]
          have e : ∀ (l r : Loc P), foldE (fun l m => Loc.add s.transcript (s.process m) l) l [vm] = .ok r ↔
              Loc.add s.transcript (s.process vm) l = .ok r := by
            intro l r
            simp only [foldE]
            cases Loc.add s.transcript (s.process vm) l <;> simp
          simp only [e]
          exact pre_add_comm hv hp ho r
        · have hnt : st.tasks.filter (fun m => m.sender = x) = [] := by
            rw [List.filter_eq_nil_iff]
            intro t ht hts
            exact hex ⟨t, ht, by simpa using hts⟩
          rw [hnt]
          simp [foldE, Loc.deliver, hp, ho]
      cases o with
      | toProcess vm =>
        have hs := pre_sender hp
        have hnone := hnew _ vm ⟨rfl, rfl⟩
        have hnt : st.tasks.filter (fun m => m.sender = x) = [] := by
          rw [List.filter_eq_nil_iff]
          intro t ht hts
          exact hnone t ht (by simpa using hts)
        simp only [PreOutcome.ok?, Except.ok.injEq] at h
        subst h
        refine ⟨hi.expecting, hi.outs, ?_, ?_⟩
        · simp only [List.map_append, List.map_cons, List.map_nil]
          rw [List.nodup_append]
          refine ⟨hi.tasks, by simp, ?_⟩
          intro a ha b hb
          simp only [List.mem_singleton] at hb
          subst hb
          obtain ⟨t, ht, rfl⟩ := List.mem_map.1 ha
          rw [hs]
          exact hnone t ht
        · refine hstep _ rfl rfl ?_ ?_
          · intro y hy
            simp [List.filter_append, hs, Ne.symm hy]
          · intro r
            simp only [List.filter_append, hnt, List.nil_append, List.filter_cons, hs, decide_true, if_true,
              List.filter_nil, foldE, Loc.deliver, hp, PreOutcome.ok?, Except.ok.injEq, exists_eq_left']
            cases Loc.add s.transcript (s.process vm) l1 <;> simp
      | cached =>
        simp only [PreOutcome.ok?, Except.ok.injEq] at h
        subst h
        exact ⟨hi.expecting, hi.outs, hi.tasks, hstep _ rfl rfl (fun _ _ => rfl) (hkeep rfl)⟩
      | error e =>
        simp only [PreOutcome.ok?, Except.ok.injEq] at h
        subst h
        exact ⟨hi.expecting, hi.outs, hi.tasks, hstep _ rfl rfl (fun _ _ => rfl) (hkeep rfl)⟩
  | complete i =>
    simp only [parDeliveries, List.append_nil]
    simp only [parOp] at h
    cases ht : st.tasks[i]? with
    | none =>
      simp only [ht, Except.ok.injEq] at h
      exact h ▸ hi
    | some vm =>
      simp only [ht, Session.addProcessed] at h
      rw [addProcessed_loc] at h
      have hsx : (s.process vm).message.sender = vm.sender := rfl
      rw [hsx] at h
      cases ha : Loc.add s.transcript (s.process vm) (st.accum.loc vm.sender) with
      | error e => simp [ha, liftLoc] at h
      | ok l1 =>
        simp only [ha, liftLoc, Except.ok.injEq] at h
        subst h
        obtain ⟨h1, h2, h3⟩ := filter_nodup_idx (fun m : VerifiedMessage sp => m.sender) hi.tasks ht
        refine ⟨hi.expecting, hi.outs, map_eraseIdx_nodup _ hi.tasks, ?_⟩
        · intro x r
          rw [← hi.same]
          unfold Pending
          by_cases hx : x = vm.sender
          · subst hx
            simp only [h1, h2, foldE, Accum.loc_setLoc_same, ha]
          · simp only [h3 x hx, Accum.loc_setLoc_other _ hx]
  | send i =>
    simp only [parDeliveries, List.append_nil]
    simp only [parOp] at h
    cases ho : st.outgoing[i]? with
    | none =>
      simp only [ho, Except.ok.injEq] at h
      exact h ▸ hi
    | some o =>
      obtain ⟨d, res⟩ := o
      cases res with
      | error e =>
        simp only [ho, Except.ok.injEq] at h
        exact h ▸ hi
      | ok res =>
        obtain ⟨m, art⟩ := res
        simp only [ho] at h
        rw [addArtifact_loc] at h
        obtain ⟨h1, h2, h3⟩ := filter_nodup_idx outParty hi.outs ho
        have hpty : outParty ((d, .ok (m, art)) : OutTask P) = art.destination := rfl
        rw [hpty] at h1 h2 h3
        cases ha : Loc.art art (st.accum.loc art.destination) with
        | error e => simp [ha, liftLoc] at h
        | ok l1 =>
          simp only [ha, liftLoc, Except.ok.injEq] at h
          subst h
          refine ⟨hi.expecting, map_eraseIdx_nodup _ hi.outs, hi.tasks, ?_⟩
          intro x r
          rw [← hi.same]
          unfold Pending
          by_cases hx : x = art.destination
          · subst hx
            simp only [h1, h2]
            have hcomm := outs_comm (add_artFree' s (st.tasks.filter (fun m => m.sender = art.destination)))
              [(d, .ok (m, art))] (st.accum.loc art.destination) r
            rw [← hcomm, Accum.loc_setLoc_same]
            simp [foldE, outLoc, ha]
          · simp only [h3 x hx, Accum.loc_setLoc_other _ hx]

/-- The tasks after a step. -/
theorem tasks_step {s : Session P} {st st' : ParSt P} {op : ParOp sp} (h : parOp s st op = .ok st') {vm : VerifiedMessage sp}
    (hvm : vm ∈ st'.tasks) : vm ∈ st.tasks ∨ ∃ x m a, op = .deliver x m ∧ vm.sender = x ∧
      s.preprocess st.accum x m = .ok (a, .toProcess vm) := by
  cases op with
  | deliver x m =>
    simp only [parOp] at h
    cases hp : s.preprocess st.accum x m with
    | error e => simp [hp] at h
    | ok r =>
      obtain ⟨a, o⟩ := r
      simp only [hp] at h
      cases o with
      | toProcess vm' =>
        simp only [PreOutcome.ok?, Except.ok.injEq] at h
        subst h
        simp only [List.mem_append, List.mem_singleton] at hvm
        rcases hvm with hvm | rfl
        · exact Or.inl hvm
        · refine Or.inr ⟨x, m, a, rfl, ?_, hp⟩
          rw [preprocess_loc] at hp
          cases hl : Loc.pre s x m (st.accum.loc x) with
          | error e => simp [hl, liftLoc₂] at hp
          | ok r =>
            obtain ⟨l1, o⟩ := r
            simp only [hl, liftLoc₂, Except.ok.injEq, Prod.mk.injEq] at hp
            obtain ⟨-, rfl⟩ := hp
            exact pre_sender hl
      | cached =>
        simp only [PreOutcome.ok?, Except.ok.injEq] at h
        subst h
        exact Or.inl hvm
      | error e =>
        simp only [PreOutcome.ok?, Except.ok.injEq] at h
        subst h
        exact Or.inl hvm
  | complete i =>
    simp only [parOp] at h
    split at h
    · simp only [Except.ok.injEq] at h
      subst h
      exact Or.inl hvm
    · split at h
      · simp at h
      · simp only [Except.ok.injEq] at h
        subst h
        exact Or.inl (List.mem_of_mem_eraseIdx hvm)
  | send i =>
    simp only [parOp] at h
    split at h
    · split at h
      · simp at h
      · simp only [Except.ok.injEq] at h
        subst h
        exact Or.inl hvm
    · simp only [Except.ok.injEq] at h
      subst h
      exact Or.inl hvm

theorem inv_step {s : Session P} {rng : sp.Rng} {cached : List (VerifiedMessage sp)}
    {l : List (sp.Id × Message sp)} {st st' : ParSt P} {op : ParOp sp} (hi : ParInv s rng cached l st)
    (hd : (cached.map (fun m => m.sender) ++ (l ++ parDeliveries [op]).map Prod.fst).Nodup)
    (h : parOp s st op = .ok st') : ParInv s rng cached (l ++ parDeliveries [op]) st' := by
  refine ⟨sim_step hi.toParSim ?_ h, ?_⟩
  · cases op with
    | deliver x m =>
      have hx : ∀ vm ∈ st.tasks, vm.sender ≠ x := by
        intro vm hvm he
        simp only [parDeliveries] at hd
        rw [List.map_append, ← List.append_assoc] at hd
        exact (List.nodup_append.1 hd).2.2 _ (he ▸ hi.seen vm hvm) x (by simp) rfl
      exact ⟨fun vm hvm he => absurd he (hx vm hvm), fun _ _ _ => hx⟩
    | complete i => trivial
    | send i => trivial
  · intro vm hvm
    rcases tasks_step h hvm with h1 | ⟨x, m, a, rfl, h1, -⟩
    · have := hi.seen vm h1
      simp only [List.mem_append, List.map_append] at this ⊢
      tauto
    · simp [parDeliveries, h1]

theorem parDeliveries_append (l l' : List (ParOp sp)) : parDeliveries (l ++ l') = parDeliveries l ++ parDeliveries l' := by
  induction l with
  | nil => rfl
  | cons o l ih => cases o <;> simp [parDeliveries, ih]

theorem inv_run {s : Session P} {rng : sp.Rng} {cached : List (VerifiedMessage sp)}
    {l : List (sp.Id × Message sp)} {st st' : ParSt P} {ops : List (ParOp sp)} (hi : ParInv s rng cached l st)
    (hd : (cached.map (fun m => m.sender) ++ (l ++ parDeliveries ops).map Prod.fst).Nodup)
    (h : foldE (parOp s) st ops = .ok st') : ParInv s rng cached (l ++ parDeliveries ops) st' := by
  induction ops generalizing l st with
  | nil =>
    simp only [foldE, Except.ok.injEq] at h
    subst h
    simpa [parDeliveries] using hi
  | cons op ops ih =>
    simp only [foldE] at h
    cases ho : parOp s st op with
    | error e => simp [ho] at h
    | ok st1 =>
      simp only [ho] at h
      have hsplit : parDeliveries (op :: ops) = parDeliveries [op] ++ parDeliveries ops :=
        parDeliveries_append [op] ops
      rw [hsplit, ← List.append_assoc] at hd ⊢
      refine ih (inv_step hi ?_ ho) hd h
      rw [List.map_append, ← List.append_assoc] at hd
      exact (List.nodup_append.1 hd).1

theorem seqRound_loc {s : Session P} {rng : sp.Rng} {cached : List (VerifiedMessage sp)}
    {l : List (sp.Id × Message sp)} {b : Accum P} :
    SeqRound s rng cached l b ↔ b.expecting = s.comm.expecting ∧ ∀ x, SeqLoc s rng cached l x (b.loc x) := by
  rw [seqRound_iff]
  exact fold_loc SeqOp.party (SeqOp.apply s) (SeqOp.loc s) (SeqOp.apply_loc s) _ _ _

theorem parJoin_loc {st : ParSt P} {a : Accum P} :
    parJoin st = .ok a ↔ a.expecting = st.accum.expecting ∧
      ∀ x, foldE outLoc (st.accum.loc x) (st.outgoing.filter (fun o => outParty o = x)) = .ok (a.loc x) := by
  rw [parJoin_iff]
  exact fold_loc outParty outApply outLoc outApply_loc _ _ _

theorem seqLoc_prefix {s : Session P} {rng : sp.Rng} {cached : List (VerifiedMessage sp)}
    {l l' : List (sp.Id × Message sp)} {x : sp.Id} {r : Loc P} (h : SeqLoc s rng cached (l ++ l') x r) :
    ∃ u, SeqLoc s rng cached l x u := by
  unfold SeqLoc seqOps at *
  rw [List.map_append, ← List.append_assoc, List.filter_append, foldE_append] at h
  obtain ⟨u, hu, -⟩ := h
  exact ⟨u, hu⟩

/-- A step cannot fail if the sequential round succeeds. -/
theorem step_succeeds {s : Session P} {rng : sp.Rng} {cached : List (VerifiedMessage sp)}
    {l : List (sp.Id × Message sp)} {st : ParSt P} {op : ParOp sp} (hi : ParInv s rng cached l st)
    (hd : (cached.map (fun m => m.sender) ++ (l ++ parDeliveries [op]).map Prod.fst).Nodup)
    (hseq : ∀ x, ∃ r, SeqLoc s rng cached (l ++ parDeliveries [op]) x r) : ∃ st', parOp s st op = .ok st' := by
  cases op with
  | deliver x m =>
    simp only [parDeliveries] at hd hseq
    obtain ⟨r, hr⟩ := hseq x
    rw [seqLoc_snoc, if_pos rfl] at hr
    obtain ⟨u, h1, h2⟩ := hr
    have hx : x ∉ cached.map (fun m => m.sender) ++ l.map Prod.fst := by
      rw [List.map_append, ← List.append_assoc] at hd
      have := List.nodup_append.1 hd
      intro hc
      exact this.2.2 _ hc x (by simp) rfl
    have hnt : st.tasks.filter (fun m => m.sender = x) = [] := by
      rw [List.filter_eq_nil_iff]
      intro t ht hts
      have hts : t.sender = x := by simpa using hts
      exact hx (hts ▸ hi.seen t ht)
    rw [← hi.same] at h1
    unfold Pending at h1
    rw [hnt] at h1
    simp only [foldE, Except.ok.injEq, exists_eq_left'] at h1
    obtain ⟨v, h3, -⟩ := (outs_comm (deliver_artFree s x m) _ _ _).1 ⟨u, h1, h2⟩
    unfold Loc.deliver at h3
    simp only [parOp, preprocess_loc]
    cases hp : Loc.pre s x m (st.accum.loc x) with
    | error e => simp [hp] at h3
    | ok q =>
      obtain ⟨l1, o⟩ := q
      simp only [liftLoc₂]
      cases o.ok? with
      | none => exact ⟨_, rfl⟩
      | some vm => exact ⟨_, rfl⟩
  | complete i =>
    simp only [parDeliveries, List.append_nil] at hseq
    simp only [parOp]
    cases ht : st.tasks[i]? with
    | none => exact ⟨_, rfl⟩
    | some vm =>
      obtain ⟨h1, -, -⟩ := filter_nodup_idx (fun m : VerifiedMessage sp => m.sender) hi.tasks ht
      obtain ⟨r, hr⟩ := hseq vm.sender
      rw [← hi.same] at hr
      obtain ⟨u, h2, -⟩ := hr
      rw [h1] at h2
      simp only [foldE] at h2
      simp only [Session.addProcessed]
      rw [addProcessed_loc]
      have hsx : (s.process vm).message.sender = vm.sender := rfl
      rw [hsx]
      cases ha : Loc.add s.transcript (s.process vm) (st.accum.loc vm.sender) with
      | error e => simp [ha] at h2
      | ok l1 => exact ⟨_, rfl⟩
  | send i =>
    simp only [parDeliveries, List.append_nil] at hseq
    simp only [parOp]
    cases ho : st.outgoing[i]? with
    | none => exact ⟨_, rfl⟩
    | some o =>
      obtain ⟨d, res⟩ := o
      cases res with
      | error e => exact ⟨_, rfl⟩
      | ok res =>
        obtain ⟨m, art⟩ := res
        obtain ⟨h1, -, -⟩ := filter_nodup_idx outParty hi.outs ho
        have hpty : outParty ((d, .ok (m, art)) : OutTask P) = art.destination := rfl
        rw [hpty] at h1
        obtain ⟨r, hr⟩ := hseq art.destination
        rw [← hi.same] at hr
        unfold Pending at hr
        rw [← outs_comm (add_artFree' s _), h1] at hr
        obtain ⟨u, h2, -⟩ := hr
        simp only [foldE, outLoc] at h2
        simp only
        rw [addArtifact_loc]
        cases ha : Loc.art art (st.accum.loc art.destination) with
        | error e => simp [ha] at h2
        | ok l1 => exact ⟨_, rfl⟩

theorem run_succeeds {s : Session P} {rng : sp.Rng} {cached : List (VerifiedMessage sp)}
    {l : List (sp.Id × Message sp)} {st : ParSt P} {ops : List (ParOp sp)} (hi : ParInv s rng cached l st)
    (hd : (cached.map (fun m => m.sender) ++ (l ++ parDeliveries ops).map Prod.fst).Nodup)
    (hseq : ∀ x, ∃ r, SeqLoc s rng cached (l ++ parDeliveries ops) x r) : ∃ st', foldE (parOp s) st ops = .ok st' := by
  induction ops generalizing l st with
  | nil => exact ⟨st, rfl⟩
  | cons op ops ih =>
    have hsplit : parDeliveries (op :: ops) = parDeliveries [op] ++ parDeliveries ops :=
      parDeliveries_append [op] ops
    rw [hsplit, ← List.append_assoc] at hd hseq
    have hd1 : (cached.map (fun m => m.sender) ++ (l ++ parDeliveries [op]).map Prod.fst).Nodup := by
      have hd' := hd
      rw [List.map_append, ← List.append_assoc] at hd'
      exact (List.nodup_append.1 hd').1
    obtain ⟨st1, h1⟩ := step_succeeds hi hd1 (fun x => by obtain ⟨r, hr⟩ := hseq x; exact seqLoc_prefix hr)
    obtain ⟨st2, h2⟩ := ih (inv_step hi hd1 h1) hd hseq
    exact ⟨st2, by simp only [foldE, h1]; exact h2⟩

end Manul
