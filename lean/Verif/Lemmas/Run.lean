import Verif.Lemmas.Par
import Verif.Spec.Run

/-!
# Rounds, transcripts and runs
-/

namespace Manul

variable {sp : SP} {P : Proto sp}

/-! ## Rounds -/

/-- An invariant of the steps of a round holds at its end. -/
theorem seqRound_inv {s : Session P} {rng : sp.Rng} {cached : List (VerifiedMessage sp)}
    {l : List (sp.Id × Message sp)} {b : Accum P} {I : sp.Id → Loc P → Prop} (h : SeqRound s rng cached l b)
    (h0 : ∀ x, I x ((s.makeAccum).loc x))
    (hart : ∀ x p u u', I x u → Loc.art p u = .ok u' → I x u')
    (happ : ∀ vm u u', vm ∈ cached → I vm.sender u → Loc.add s.transcript (s.process vm) u = .ok u' → I vm.sender u')
    (hdel : ∀ x m u u', I x u → Loc.deliver s x m u = .ok u' → I x u') (x : sp.Id) : I x (b.loc x) := by
  have hx := (seqRound_loc.1 h).2 x
  unfold SeqLoc at hx
  have key : ∀ (ops : List (SeqOp P)) (u v : Loc P),
      (∀ op ∈ ops, op.party = x ∧ ∀ vm, op = .add vm → vm ∈ cached) → foldE (SeqOp.loc s) u ops = .ok v → I x u → I x v := by
    intro ops
    induction ops with
    | nil =>
      intro u v _ h hu
      simp only [foldE, Except.ok.injEq] at h
      exact h ▸ hu
    | cons op ops ih =>
      intro u v hops h hu
      simp only [foldE] at h
      cases ho : SeqOp.loc s u op with
      | error e => simp [ho] at h
      | ok u1 =>
        simp only [ho] at h
        refine ih u1 v (fun o ho => hops o (List.mem_cons_of_mem _ ho)) h ?_
        obtain ⟨hp, hc⟩ := hops op (List.mem_cons_self ..)
        cases op with
        | out o =>
          simp only [SeqOp.loc, outLoc] at ho
          obtain ⟨d, r⟩ := o
          cases r with
          | error e => simp at ho
          | ok r => exact hart _ _ _ _ hu ho
        | add vm =>
          simp only [SeqOp.party] at hp
          subst hp
          exact happ vm _ _ (hc vm rfl) hu ho
        | del y m =>
          simp only [SeqOp.party] at hp
          subst hp
          exact hdel _ _ _ _ hu ho
  refine key _ _ _ ?_ hx (h0 x)
  intro op hop
  rw [List.mem_filter] at hop
  refine ⟨by simpa using hop.2, ?_⟩
  rintro vm rfl
  have := hop.1
  unfold seqOps at this
  simp only [List.mem_append, List.mem_map] at this
  rcases this with (⟨o, -, h⟩ | ⟨v, hv, h⟩) | ⟨y, -, h⟩
  · simp at h
  · simp only [SeqOp.add.injEq] at h
    exact h ▸ hv
  · simp at h

/-- The possible effects of a delivery. -/
inductive Delivered (s : Session P) (x : sp.Id) (m : Message sp) (l : Loc P) : Loc P → Prop where
  | ignored : s.transcript.isBanned x = true ∨ l.banned = true → Delivered s x m l l
  | refused {e : RErr} : s.transcript.isBanned x = false → l.banned = false →
      Delivered s x m l { l with unprovable := some e }
  | processed {l' : Loc P} : s.transcript.isBanned x = false → l.banned = false → l.processing = false →
      Authentic x s.sessionId s.roundId m.direct m.echo m.normal →
      l.payload = none → l.notSent = true →
      Added s.transcript (s.process (verifiedOf x m)) { l with processing := true } l' → Delivered s x m l l'
  | kept {vm : VerifiedMessage sp} : s.transcript.isBanned x = false → l.banned = false →
      (l.cached.getD BMap.empty).contains vm.metadata.roundId = false →
      vm = verifiedOf x m → Authentic x s.sessionId vm.metadata.roundId m.direct m.echo m.normal →
      vm.metadata.roundId ≠ s.roundId → Simultaneous s vm.metadata.roundId →
      Delivered s x m l { l with cached := some ((l.cached.getD BMap.empty).insert vm.metadata.roundId vm) }

theorem deliver_cases {s : Session P} {x : sp.Id} {m : Message sp} {l l' : Loc P} (h : Loc.deliver s x m l = .ok l') :
    Delivered s x m l l' := by
  unfold Loc.deliver at h
  cases hp : Loc.pre s x m l with
  | error e => simp [hp] at h
  | ok r =>
    obtain ⟨l1, o⟩ := r
    simp only [hp] at h
    cases pre_ok hp with
    | ignored hb =>
      simp only [PreOutcome.ok?, Except.ok.injEq] at h
      subst h
      exact .ignored hb
    | refused h1 h2 =>
      simp only [PreOutcome.ok?, Except.ok.injEq] at h
      subst h
      exact .refused h1 h2
    | process h1 h2 h3 h4 h5 =>
      subst h4
      simp only [PreOutcome.ok?] at h
      obtain ⟨ha, hb, hc⟩ := add_ok h
      exact .processed h1 h2 h3 h5 ha hb hc
    | keep h1 h2 h3 h4 h5 h6 h7 =>
      simp only [PreOutcome.ok?, Except.ok.injEq] at h
      subst h
      exact .kept h1 h2 h3 h4 h5 h6 h7

theorem art_ok {p : ProcessedArtifact P} {l l' : Loc P} (h : Loc.art p l = .ok l') :
    l.artifact = none ∧ l' = { l with artifact := some p.artifact } := by
  unfold Loc.art at h
  cases ha : l.artifact with
  | some v => simp [ha] at h
  | none =>
    simp only [ha, Option.isSome_none, Bool.false_eq_true, if_false, Except.ok.injEq] at h
    exact ⟨rfl, h.symm⟩

/-- A round of the driver is a history of calls. -/
theorem seqRound_reach {s : Session P} {rng : sp.Rng} {cached : List (VerifiedMessage sp)}
    {l : List (sp.Id × Message sp)} {b : Accum P} (h : SeqRound s rng cached l b) : AccReach s b := by
  rw [seqRound_iff] at h
  have key : ∀ (ops : List (SeqOp P)) (a b : Accum P), foldE (SeqOp.apply s) a ops = .ok b → ∃ os, Hist s a os b := by
    intro ops
    induction ops with
    | nil =>
      intro a b h
      exact ⟨[], h⟩
    | cons op ops ih =>
      intro a b h
      simp only [foldE] at h
      cases ho : SeqOp.apply s a op with
      | error e => simp [ho] at h
      | ok a1 =>
        simp only [ho] at h
        obtain ⟨os, hos⟩ := ih a1 b h
        suffices h1 : ∃ os1, Hist s a os1 a1 by
          obtain ⟨os1, h1⟩ := h1
          exact ⟨_, hist_append h1 hos⟩
        cases op with
        | out o =>
          obtain ⟨d, r⟩ := o
          cases r with
          | error e => simp [SeqOp.apply, outApply] at ho
          | ok r =>
            obtain ⟨m, art⟩ := r
            simp only [SeqOp.apply, outApply] at ho
            exact ⟨[.art art], by simp [Hist, foldE, AccOp.apply, ho]⟩
        | add m =>
          simp only [SeqOp.apply, applyVerified] at ho
          exact ⟨[.add (s.process m)], by simp [Hist, foldE, AccOp.apply, ho]⟩
        | del x m =>
          obtain ⟨os1, h1, -⟩ := deliver_hist ho
          exact ⟨os1, h1⟩
  exact key _ _ _ h

/-! ## The transcript -/

theorem mergeErrors_iff {E : Type} {err : LErr} {all new m : BMap sp.Id E} :
    Transcript.mergeErrors err all new = .ok m ↔
      (∀ x, new.contains x = true → all.contains x = false) ∧
        ∀ x, m.get? x = (new.get? x).or (all.get? x) := by
  unfold Transcript.mergeErrors
  have key : ∀ (l : List (sp.Id × E)) (all m : BMap sp.Id E), (l.map Prod.fst).Nodup →
      (foldE (fun m e => if m.contains e.1 then .error err else .ok (m.insert e.1 e.2)) all l = .ok m ↔
        (∀ x ∈ l.map Prod.fst, all.contains x = false) ∧
          ∀ x, m.get? x = (BMap.lookupL x l).or (all.get? x)) := by
    intro l
    induction l with
    | nil =>
      intro all m _
      simp only [foldE, Except.ok.injEq, List.map_nil, List.not_mem_nil, false_implies, implies_true, true_and,
        BMap.lookupL, Option.none_or]
      constructor
      · rintro rfl x; rfl
      · intro h; exact BMap.ext fun k => (h k).symm
    | cons e l ih =>
      intro all m hd
      obtain ⟨k, v⟩ := e
      simp only [List.map_cons, List.nodup_cons] at hd
      simp only [foldE]
      by_cases hc : all.contains k = true
      · simp [hc]
      · have hc' : all.contains k = false := by simpa using hc
        simp only [hc', Bool.false_eq_true, if_false]
        rw [ih _ _ hd.2]
        simp only [List.map_cons, List.mem_cons, forall_eq_or_imp, hc', true_and]
        constructor
        · rintro ⟨h1, h2⟩
          refine ⟨fun x hx => ?_, fun x => ?_⟩
          · have := h1 x hx
            rw [BMap.contains_insert] at this
            by_cases hxk : x = k
            · subst hxk; exact absurd hx hd.1
            · simp_all
          · rw [h2 x]
            simp only [BMap.get?_insert, BMap.lookupL]
            by_cases hxk : x = k
            · subst hxk
              have hn : BMap.lookupL x l = none := by
                by_contra hcon
                obtain ⟨w, hw⟩ := Option.ne_none_iff_exists'.1 hcon
                exact hd.1 (List.mem_map.2 ⟨_, BMap.mem_of_lookupL hw, rfl⟩)
              simp [hn]
            · simp [hxk]
        · rintro ⟨h1, h2⟩
          refine ⟨fun x hx => ?_, fun x => ?_⟩
          · rw [BMap.contains_insert]
            have hxk : x ≠ k := by rintro rfl; exact hd.1 hx
            simp [hxk, h1 x hx]
          · rw [h2 x]
            simp only [BMap.get?_insert, BMap.lookupL]
            by_cases hxk : x = k
            · subst hxk
              have hn : BMap.lookupL x l = none := by
                by_contra hcon
                obtain ⟨w, hw⟩ := Option.ne_none_iff_exists'.1 hcon
                exact hd.1 (List.mem_map.2 ⟨_, BMap.mem_of_lookupL hw, rfl⟩)
              simp [hn]
            · simp [hxk]
  rw [key _ _ _ new.toList_nodupKeys]
  have hm : ∀ x, x ∈ new.toList.map Prod.fst ↔ new.contains x = true := by
    intro x
    rw [BMap.contains_iff, List.mem_map]
    constructor
    · rintro ⟨⟨k, v⟩, h1, rfl⟩
      exact ⟨v, BMap.mem_toList.1 h1⟩
    · rintro ⟨v, hv⟩
      exact ⟨(x, v), BMap.mem_toList.2 hv, rfl⟩
  simp only [hm]
  rfl

/-- What a successful update does. -/
structure Updated (t : Transcript sp) (rid : RoundId) (me : sp.Id) (myEcho : SignedPart .echo) (a : Accum P)
    (t' : Transcript sp) : Prop where
  freshE : t.echos.contains rid = false
  freshN : t.normals.contains rid = false
  freshD : t.directs.contains rid = false
  freshM : t.missing.contains rid = false
  newP : ∀ x, a.provable.contains x = true → t.provable.contains x = false
  newU : ∀ x, a.unprovable.contains x = true → t.unprovable.contains x = false
  echos : t'.echos = t.echos.insert rid (a.echos.insert me myEcho)
  normals : t'.normals = t.normals.insert rid a.normals
  directs : t'.directs = t.directs.insert rid a.directs
  provable : ∀ x, t'.provable.get? x = (a.provable.get? x).or (t.provable.get? x)
  unprovable : ∀ x, t'.unprovable.get? x = (a.unprovable.get? x).or (t.unprovable.get? x)
  missing : t'.missing = if a.notSent.isEmpty then t.missing else t.missing.insert rid a.notSent

theorem update_iff {s : Session P} {a : Accum P} {t' : Transcript sp} :
    s.updatedTranscript a = .ok t' ↔ Updated s.transcript s.roundId s.me s.echo a t' := by
  unfold Session.updatedTranscript Transcript.update
  constructor
  · intro h
    split at h
    · simp at h
    · rename_i h1
      split at h
      · simp at h
      · rename_i h2
        split at h
        · simp at h
        · rename_i h3
          cases hp : Transcript.mergeErrors .transcriptProvable s.transcript.provable a.provable with
          | error e => simp [hp] at h
          | ok ap =>
            cases hu : Transcript.mergeErrors .transcriptUnprovable s.transcript.unprovable a.unprovable with
            | error e => simp [hp, hu] at h
            | ok au =>
              simp only [hp, hu] at h
              split at h
              · simp at h
              · rename_i h4
                simp only [Except.ok.injEq] at h
                subst h
                obtain ⟨p1, p2⟩ := mergeErrors_iff.1 hp
                obtain ⟨u1, u2⟩ := mergeErrors_iff.1 hu
                exact ⟨by simpa using h1, by simpa using h2, by simpa using h3, by simpa using h4, p1, u1, rfl, rfl, rfl,
                  p2, u2, rfl⟩
  · rintro ⟨h1, h2, h3, h4, p1, u1, he, hn, hd, p2, u2, hm⟩
    have hp := mergeErrors_iff (err := .transcriptProvable) |>.2 ⟨p1, p2⟩
    have hu := mergeErrors_iff (err := .transcriptUnprovable) |>.2 ⟨u1, u2⟩
    simp only [h1, h2, h3, h4, hp, hu, Bool.false_eq_true, if_false, Except.ok.injEq]
    obtain ⟨e, n, d, p, u, m⟩ := t'
    simp only at he hn hd hm
    subst he hn hd hm
    rfl

theorem Updated.banned {t t' : Transcript sp} {rid : RoundId} {me : sp.Id} {myEcho : SignedPart .echo} {a : Accum P}
    (h : Updated t rid me myEcho a t') (x : sp.Id) : t'.isBanned x = (t.isBanned x || a.isBanned x) := by
  unfold Transcript.isBanned Accum.isBanned
  simp only [contains_isSome, h.provable x, h.unprovable x]
  cases a.provable.get? x <;> cases a.unprovable.get? x <;> cases t.provable.get? x <;> cases t.unprovable.get? x <;> rfl

/-! ## Sessions -/

/-- What `new_for_next_round` establishes. -/
structure NewSession (sid : Bytes) (sk : sp.Signer) (rd : SRound P) (t : Transcript sp) (s : Session P) : Prop where
  sessionId : s.sessionId = sid
  signer : s.signer = sk
  me : s.me = sp.verifyingKey sk
  round : s.round = rd
  comm : s.comm = rd.comm
  transition : rd.transition = .ok s.transition
  transcript : s.transcript = t
  echoInfo : s.echoInfo = Session.makeEchoInfo s.me s.comm (!s.echo.part.isNone)
  echo : ∃ rng, SignedPart.new sp rng sk sid s.transition.id s.echo.part = .ok s.echo
  normal : ∃ rng, SignedPart.new sp rng sk sid s.transition.id s.normal.part = .ok s.normal
  echoPart : ∃ rng, (if s.comm.destinations.isEmpty then Except.ok Part.none else rd.makeEcho rng) = .ok s.echo.part
  normalPart : ∃ rng, (if s.comm.destinations.isEmpty then Except.ok Part.none else rd.makeNormal rng) =
    .ok s.normal.part

theorem signed_part {sp : SP} {k : PartKind} {rng : sp.Rng} {signer : sp.Signer} {sid : Bytes} {rid : RoundId} {p : Part k}
    {q : SignedPart k} (h : SignedPart.new sp rng signer sid rid p = .ok q) : q.part = p ∧ q.metadata = ⟨sid, rid⟩ := by
  unfold SignedPart.new at h
  repeat' split at h
  all_goals first
    | (simp at h; done)
    | (simp only [Except.ok.injEq] at h; subst h; exact ⟨rfl, rfl⟩)

theorem newForNextRound_ok {rng : sp.Rng} {sid : Bytes} {signer : sp.Signer} {round : SRound P} {t : Transcript sp}
    {s : Session P} (h : Session.newForNextRound rng sid signer round t = .ok s) : NewSession sid signer round t s := by
  unfold Session.newForNextRound at h
  cases htr : round.transition with
  | error e => simp [htr] at h
  | ok tr =>
    simp only [htr] at h
    cases h1 : (if round.comm.destinations.isEmpty then Except.ok Part.none else round.makeEcho (sp.fork rng 0)) with
    | error e => simp [h1] at h
    | ok e =>
      simp only [h1] at h
      cases h2 : SignedPart.new sp (sp.fork rng 1) signer sid tr.id e with
      | error e => simp [h2] at h
      | ok se =>
        simp only [h2] at h
        cases h3 : (if round.comm.destinations.isEmpty then Except.ok Part.none else round.makeNormal (sp.fork rng 2)) with
        | error e => simp [h3] at h
        | ok n =>
          simp only [h3] at h
          cases h4 : SignedPart.new sp (sp.fork rng 3) signer sid tr.id n with
          | error e => simp [h4] at h
          | ok sn =>
            simp only [h4, Except.ok.injEq] at h
            subst h
            have e2 := (signed_part h2).1
            have e4 := (signed_part h4).1
            exact ⟨rfl, rfl, rfl, rfl, rfl, htr, rfl, rfl, ⟨_, by simpa only [e2] using h2⟩, ⟨_, by simpa only [e4] using h4⟩,
              ⟨_, by simpa only [e2] using h1⟩, ⟨_, by simpa only [e4] using h3⟩⟩

/-- The session comes from the library's constructors: the invariant of session objects used throughout. -/
def Proper (s : Session P) : Prop := NewSession s.sessionId s.signer s.round s.transcript s

theorem NewSession.proper {sid : Bytes} {signer : sp.Signer} {round : SRound P} {t : Transcript sp} {s : Session P}
    (h : NewSession sid signer round t s) : Proper s := by
  obtain ⟨rfl, rfl, h3, rfl, h5, h6, rfl, h8, h9, h10, h11, h12⟩ := h
  exact ⟨rfl, rfl, h3, rfl, h5, h6, rfl, h8, h9, h10, h11, h12⟩

theorem new_proper {rng : sp.Rng} {sid : Bytes} {signer : sp.Signer} {ep : EntryPoint P} {s : Session P}
    (h : Session.new rng sid signer ep = .ok s) :
    Proper s ∧ s.sessionId = sid ∧ s.signer = signer ∧ s.transcript = Transcript.new ∧ ∃ r, s.round = .main r := by
  unfold Session.new at h
  split at h
  · simp at h
  · have := newForNextRound_ok h
    exact ⟨this.proper, this.sessionId, this.signer, this.transcript, _, this.round⟩

/-- The ways `finalize_round` succeeds. -/
inductive Finalized (s : Session P) (rng : sp.Rng) (a : Accum P) (t : Transcript sp) : RoundOutcome P → Prop where
  | toEcho {info : EchoInfo sp.Id} {r : P.Rd} {s' : Session P} {ebs : BMap sp.Id (SignedPart .echo)} :
      s.echoInfo = some info → s.round = .main r → t.echos.get? s.roundId = some ebs →
      NewSession s.sessionId s.signer (.echo ⟨s.me, ebs, info, r, a.payloads, a.artifacts⟩) t s' →
      Finalized s rng a t (.anotherRound s' (Accum.filterMessages a.cached s'.roundId))
  | result {r : P.Result} : s.echoInfo = none →
      s.round.finalize (sp.fork rng 0) a.payloads a.artifacts = .ok (.result r) →
      Finalized s rng a t (.finished (Report.new (.result r) t))
  | toNext {r : P.Rd} {s' : Session P} : s.echoInfo = none →
      s.round.finalize (sp.fork rng 0) a.payloads a.artifacts = .ok (.anotherRound r) →
      s.transition.children.contains (P.transition r).id = true →
      NewSession s.sessionId s.signer (.main r) t s' → s'.roundId = (P.transition r).id →
      Finalized s rng a t (.anotherRound s'
        ((Accum.filterMessages a.cached (P.transition r).id).filter (fun m => !t.isBanned m.sender)))

theorem finalizeRound_ok {s : Session P} {rng : sp.Rng} {a : Accum P} {o : RoundOutcome P}
    (h : s.finalizeRound rng a = .ok o) :
    ∃ t, Updated s.transcript s.roundId s.me s.echo a t ∧ Finalized s rng a t o := by
  unfold Session.finalizeRound at h
  cases hu : s.updatedTranscript a with
  | error e => simp [hu] at h
  | ok t =>
    simp only [hu] at h
    refine ⟨t, update_iff.1 hu, ?_⟩
    cases hi : s.echoInfo with
    | some info =>
      simp only [hi] at h
      cases hr : s.round with
      | echo e => simp [hr] at h
      | main r =>
        simp only [hr] at h
        unfold Session.startEcho Transcript.echoBroadcasts at h
        cases he : t.echos.get? s.roundId with
        | none => simp [he, okOr] at h
        | some ebs =>
          simp only [he, okOr] at h
          split at h
          · simp at h
          · rename_i tr htr
            split at h
            · simp at h
            · rename_i s' hs'
              simp only [Except.ok.injEq] at h
              subst h
              have hns := newForNextRound_ok hs'
              have : s'.roundId = tr.id := by
                have := hns.transition
                rw [htr] at this
                simp only [Except.ok.injEq] at this
                simp [Session.roundId, this]
              rw [← this]
              exact .toEcho hi hr he hns
    | none =>
      simp only [hi] at h
      unfold Session.finalizeProper at h
      split at h
      · simp at h
      · rename_i r hr
        simp only [Except.ok.injEq] at h
        subst h
        exact .result hi hr
      · rename_i r hr
        simp only at h
        split at h
        · simp at h
        · rename_i hc
          split at h
          · simp at h
          · rename_i s' hs'
            simp only [Except.ok.injEq] at h
            subst h
            have hns := newForNextRound_ok hs'
            refine .toNext hi hr (by simpa using hc) hns ?_
            have := hns.transition
            simp only [SRound.transition, Except.ok.injEq] at this
            simp [Session.roundId, ← this]

/-! ## Runs -/

theorem startRound_seq {s : Session P} {rng : sp.Rng} {cached : List (VerifiedMessage sp)} {a : Accum P}
    {out : List (Message sp)} (h : startRound s rng cached = .ok (a, out)) : SeqRound s rng cached [] a :=
  ⟨a, out, h, rfl⟩

theorem seqRound_snoc {s : Session P} {rng : sp.Rng} {cached : List (VerifiedMessage sp)}
    {l : List (sp.Id × Message sp)} {a b : Accum P} {x : sp.Id} {m : Message sp} (h : SeqRound s rng cached l a)
    (hd : deliver s a x m = .ok b) : SeqRound s rng cached (l ++ [(x, m)]) b := by
  obtain ⟨a0, out, h1, h2⟩ := h
  refine ⟨a0, out, h1, ?_⟩
  unfold Deliveries at *
  rw [foldE_append]
  exact ⟨a, h2, by simp [foldE, hd]⟩

theorem enter_running {s s' : Session P} {rng : sp.Rng} {cached : List (VerifiedMessage sp)} {a : Accum P}
    (h : (enterRound s rng cached).1 = .running s' a) : s' = s ∧ SeqRound s rng cached [] a := by
  unfold enterRound at h
  split at h
  · simp at h
  · rename_i a' out hs
    simp only [RunState.running.injEq] at h
    obtain ⟨rfl, rfl⟩ := h
    exact ⟨rfl, startRound_seq hs⟩

theorem enter_done {s : Session P} {rng : sp.Rng} {cached : List (VerifiedMessage sp)} {r : Except LErr (Report P)}
    (h : (enterRound s rng cached).1 = .done r) : ∃ e, r = .error e := by
  unfold enterRound at h
  split at h
  · rename_i e _
    simp only [RunState.done.injEq] at h
    exact ⟨e, h.symm⟩
  · simp at h

/-- The structure of a reachable state of the sequential driver. -/
theorem reach_cases {s₀ : Session P} {st : RunState P} (h : Reach s₀ st) :
    (∃ trail s a, st = .running s a ∧ InRound s₀ trail s a) ∨
      (∃ trail s a r k, st = .done (.ok r) ∧ Ends s₀ trail s a r k) ∨ (∃ e, st = .done (.error e)) := by
  induction h with
  | start rng =>
    unfold start
    cases he : (enterRound s₀ rng []).1 with
    | running s a =>
      obtain ⟨rfl, hs⟩ := enter_running he
      exact Or.inl ⟨[], s, a, rfl, [], rng, [], .first, hs⟩
    | done r =>
      obtain ⟨e, rfl⟩ := enter_done he
      exact Or.inr (Or.inr ⟨e, rfl⟩)
  | @step st st' ev out hr hs ih =>
    rcases ih with ⟨trail, s, a, rfl, hin⟩ | ⟨_, _, _, r, _, rfl, -⟩ | ⟨e, rfl⟩
    · unfold step at hs
      cases hc : a.canFinalize with
      | yes =>
        cases ev with
        | tick rng =>
          simp only [hc, Option.some.injEq] at hs
          unfold finishRound at hs
          cases hf : s.finalizeRound (sp.fork rng 0) a with
          | error e =>
            simp only [hf, Prod.mk.injEq] at hs
            exact Or.inr (Or.inr ⟨e, hs.1.symm⟩)
          | ok o =>
            cases o with
            | finished r =>
              simp only [hf, Prod.mk.injEq] at hs
              obtain ⟨t, -, hfin⟩ := finalizeRound_ok hf
              cases hfin with
              | result hi hres => exact Or.inr (Or.inl ⟨trail, s, a, _, _, hs.1.symm, .result hin hc hf hi hres⟩)
            | anotherRound s' cached' =>
              simp only [hf] at hs
              obtain ⟨cached, rng0, l, hv, hseq⟩ := hin
              have hv' := Visits.next hv hseq hc hf
              cases he : (enterRound s' (sp.fork rng 1) cached').1 with
              | running s2 a2 =>
                obtain ⟨rfl, hs2⟩ := enter_running he
                rw [hs] at he
                exact Or.inl ⟨_, _, _, he, _, _, _, hv', hs2⟩
              | done r =>
                obtain ⟨e, rfl⟩ := enter_done he
                rw [hs] at he
                exact Or.inr (Or.inr ⟨e, he⟩)
        | deliver _ _ => simp [hc] at hs
        | cancel => simp [hc] at hs
        | close => simp [hc] at hs
      | never =>
        cases ev with
        | tick rng =>
          simp only [hc, Option.some.injEq, Prod.mk.injEq] at hs
          cases ht : s.terminateDueToErrors a with
          | error e => rw [ht] at hs; exact Or.inr (Or.inr ⟨e, hs.1.symm⟩)
          | ok r => rw [ht] at hs; exact Or.inr (Or.inl ⟨trail, s, a, r, _, hs.1.symm, .errors hin hc ht⟩)
        | deliver _ _ => simp [hc] at hs
        | cancel => simp [hc] at hs
        | close => simp [hc] at hs
      | notYet =>
        cases ev with
        | tick rng => simp [hc] at hs
        | deliver x m =>
          simp only [hc] at hs
          cases hd : deliver s a x m with
          | error e =>
            simp only [hd, Option.some.injEq, Prod.mk.injEq] at hs
            exact Or.inr (Or.inr ⟨e, hs.1.symm⟩)
          | ok a' =>
            simp only [hd, Option.some.injEq, Prod.mk.injEq] at hs
            obtain ⟨cached, rng, l, hv, hseq⟩ := hin
            exact Or.inl ⟨trail, s, a', hs.1.symm, cached, rng, _, hv, seqRound_snoc hseq hd⟩
        | cancel =>
          simp only [hc, Option.some.injEq, Prod.mk.injEq] at hs
          cases ht : s.terminateDueToErrors a with
          | error e => rw [ht] at hs; exact Or.inr (Or.inr ⟨e, hs.1.symm⟩)
          | ok r => rw [ht] at hs; exact Or.inr (Or.inl ⟨trail, s, a, r, _, hs.1.symm, .cancelled hin hc ht⟩)
        | close =>
          simp only [hc, Option.some.injEq, Prod.mk.injEq] at hs
          exact Or.inr (Or.inr ⟨_, hs.1.symm⟩)
    · simp [step] at hs
    · simp [step] at hs

theorem reach_running {s₀ s : Session P} {a : Accum P} (h : Reach s₀ (.running s a)) : ∃ trail, InRound s₀ trail s a := by
  rcases reach_cases h with ⟨trail, s', a', he, hin⟩ | ⟨_, _, _, _, _, he, -⟩ | ⟨_, he⟩
  · simp only [RunState.running.injEq] at he
    obtain ⟨rfl, rfl⟩ := he
    exact ⟨trail, hin⟩
  · simp at he
  · simp at he

theorem reach_done {s₀ : Session P} {r : Report P} (h : Reach s₀ (.done (.ok r))) : ∃ trail s a k, Ends s₀ trail s a r k := by
  rcases reach_cases h with ⟨trail, s', a', he, hin⟩ | ⟨trail, s, a, r', k, he, hk⟩ | ⟨_, he⟩
  · simp at he
  · simp only [RunState.done.injEq, Except.ok.injEq] at he
    subst he
    exact ⟨trail, s, a, k, hk⟩
  · simp at he

/-! ## Invariants of a run -/

/-- What holds of every party's part during a round of a run. -/
structure RInv (s : Session P) (x : sp.Id) (l : Loc P) : Prop where
  payload : ∀ v, l.payload = some v → ∃ (d : SignedPart .direct) (e : SignedPart .echo) (n : SignedPart .normal),
    Authentic x s.sessionId s.roundId d e n ∧ s.round.receive x ⟨e.part, n.part, d.part⟩ = .ok v
  cached : ∀ m, l.cached = some m → ∀ r vm, m.get? r = some vm →
    vm.sender = x ∧ vm.metadata.roundId = r ∧ r ≠ s.roundId ∧ Simultaneous s r ∧
      Authentic x s.sessionId r vm.direct vm.echo vm.normal
  echo : ∀ p, l.echo = some p → AuthenticPart x s.sessionId s.roundId p ∧ p.part.isNone = false
  normal : ∀ p, l.normal = some p → AuthenticPart x s.sessionId s.roundId p ∧ p.part.isNone = false
  direct : ∀ p, l.direct = some p → AuthenticPart x s.sessionId s.roundId p ∧ p.part.isNone = false

theorem storePart_some {k : PartKind} {o : Option (SignedPart k)} {p q : SignedPart k} (h : Loc.storePart o p = some q) :
    o = some q ∨ q = p ∧ p.part.isNone = false := by
  unfold Loc.storePart at h
  split at h
  · exact Or.inl h
  · rename_i hp
    simp only [Option.some.injEq] at h
    exact Or.inr ⟨h.symm, by simpa using hp⟩

theorem RInv.added {s : Session P} {x : sp.Id} {l l' : Loc P} {vm : VerifiedMessage sp} (h : RInv s x l)
    (hvm : vm.sender = x) (hau : Authentic x s.sessionId s.roundId vm.direct vm.echo vm.normal)
    (ha : Added s.transcript (s.process vm) l l') : RInv s x l' := by
  obtain ⟨h1, h2, h3, h4, h5⟩ := h
  cases ha with
  | payload hr =>
    refine ⟨?_, h2, ?_, ?_, ?_⟩
    · intro w hw
      simp only [Option.some.injEq] at hw
      subst hw
      subst hvm
      exact ⟨_, _, _, hau, hr⟩
    · intro p hp
      rcases storePart_some hp with h | ⟨rfl, h⟩
      · exact h3 p h
      · exact ⟨hau.2.1, h⟩
    · intro p hp
      rcases storePart_some hp with h | ⟨rfl, h⟩
      · exact h4 p h
      · exact ⟨hau.2.2, h⟩
    · intro p hp
      rcases storePart_some hp with h | ⟨rfl, h⟩
      · exact h5 p h
      · exact ⟨hau.1, h⟩
  | provable _ _ => exact ⟨h1, h2, h3, h4, h5⟩
  | unprovable _ => exact ⟨h1, h2, h3, h4, h5⟩

theorem seqRound_rinv {s : Session P} {rng : sp.Rng} {cached : List (VerifiedMessage sp)}
    {l : List (sp.Id × Message sp)} {b : Accum P} (h : SeqRound s rng cached l b)
    (hc : ∀ vm ∈ cached, Authentic vm.sender s.sessionId s.roundId vm.direct vm.echo vm.normal) (x : sp.Id) :
    RInv s x (b.loc x) := by
  refine seqRound_inv h ?_ ?_ ?_ ?_ x
  · intro x
    constructor <;> simp [Session.makeAccum, Accum.loc, Accum.new]
  · intro x p u u' hi hu
    obtain ⟨-, rfl⟩ := art_ok hu
    obtain ⟨h1, h2, h3, h4, h5⟩ := hi
    exact ⟨h1, h2, h3, h4, h5⟩
  · intro vm u u' hvm hi hu
    exact hi.added rfl (hc vm hvm) (add_ok hu).2.2
  · intro x m u u' hi hu
    cases deliver_cases hu with
    | ignored _ => exact hi
    | refused _ _ =>
      obtain ⟨h1, h2, h3, h4, h5⟩ := hi
      exact ⟨h1, h2, h3, h4, h5⟩
    | processed _ _ _ hau _ _ hadd =>
      have hi' : RInv s x { u with processing := true } := by
        obtain ⟨h1, h2, h3, h4, h5⟩ := hi
        exact ⟨h1, h2, h3, h4, h5⟩
      exact hi'.added (vm := verifiedOf x m) rfl hau hadd
    | @kept vm _ _ _ hvm hau hne hsim =>
      obtain ⟨h1, h2, h3, h4, h5⟩ := hi
      refine ⟨h1, ?_, h3, h4, h5⟩
      intro mm hmm r w hw
      simp only [Option.some.injEq] at hmm
      subst hmm
      rw [BMap.get?_insert] at hw
      split at hw
      · rename_i hr
        simp only [Option.some.injEq] at hw
        subst hw
        subst hr
        rw [hvm]
        rw [hvm] at hau hne hsim
        exact ⟨rfl, rfl, hne, hsim, hau⟩
      · cases hcu : u.cached with
        | none => simp [hcu] at hw
        | some m0 =>
          simp only [hcu, Option.getD_some] at hw
          exact h2 m0 hcu r w hw

/-! ### Artifacts -/

theorem foldE_keeps {ε σ α β : Type} {f : σ → α → Except ε σ} (K : σ → β) (hf : ∀ s x s', f s x = .ok s' → K s' = K s)
    {l : List α} {s t : σ} (h : foldE f s l = .ok t) : K t = K s := by
  induction l generalizing s with
  | nil =>
    simp only [foldE, Except.ok.injEq] at h
    rw [h]
  | cons x l ih =>
    simp only [foldE] at h
    cases hx : f s x with
    | error e => simp [hx] at h
    | ok s1 =>
      simp only [hx] at h
      rw [ih h, hf _ _ _ hx]

theorem lift_artifacts {a b : Accum P} {x : sp.Id} {r : Except LErr (Loc P)} (h : liftLoc a x r = .ok b)
    (hk : ∀ l, r = .ok l → l.artifact = (a.loc x).artifact) : b.artifacts = a.artifacts := by
  cases r with
  | error e => simp [liftLoc] at h
  | ok l =>
    simp only [liftLoc, Except.ok.injEq] at h
    subst h
    apply BMap.ext
    intro y
    have h1 : ((a.setLoc x l).loc y).artifact = (a.setLoc x l).artifacts.get? y := rfl
    have h2 : (a.loc y).artifact = a.artifacts.get? y := rfl
    rw [← h1, ← h2, Accum.loc_setLoc]
    split
    · rename_i hy
      subst hy
      exact hk l rfl
    · rfl

theorem applyVerified_artifacts {s : Session P} {a b : Accum P} {vm : VerifiedMessage sp} (h : applyVerified s a vm = .ok b) :
    b.artifacts = a.artifacts := by
  unfold applyVerified Session.addProcessed at h
  rw [addProcessed_loc] at h
  refine lift_artifacts h ?_
  intro l hl
  cases (add_ok hl).2.2 <;> rfl

theorem deliver_artifacts {s : Session P} {a b : Accum P} {x : sp.Id} {m : Message sp} (h : deliver s a x m = .ok b) :
    b.artifacts = a.artifacts := by
  rw [deliver_loc] at h
  refine lift_artifacts h ?_
  intro l hl
  cases deliver_cases hl with
  | ignored _ => rfl
  | refused _ _ => rfl
  | processed _ _ _ _ _ _ hadd => cases hadd <;> rfl
  | kept _ _ _ _ _ _ _ => rfl

/-- The messages sent to the destinations and the recorded artifacts. -/
theorem sendAll_spec {s : Session P} {rng : sp.Rng} {i : Nat} {a a' : Accum P} {ds : List sp.Id} {ms : List (Message sp)}
    (h : sendAll s rng i a ds = .ok (a', ms)) :
    (∀ x, a'.artifacts.contains x = (a.artifacts.contains x || decide (x ∈ ds))) ∧
      (∀ x v, a'.artifacts.get? x = some v →
        a.artifacts.get? x = some v ∨ ∃ rng p, s.round.makeDirect rng x = .ok (p, v)) ∧
      ms.length = ds.length := by
  induction ds generalizing i a ms with
  | nil =>
    simp only [sendAll, Except.ok.injEq, Prod.mk.injEq] at h
    obtain ⟨rfl, rfl⟩ := h
    simp +contextual
  | cons d ds ih =>
    simp only [sendAll] at h
    cases hm : s.makeMessage (sp.fork rng i) d with
    | error e => simp [hm] at h
    | ok r =>
      obtain ⟨m, art⟩ := r
      simp only [hm] at h
      cases ha : a.addArtifact art with
      | error e => simp [ha] at h
      | ok a1 =>
        simp only [ha] at h
        cases hs : sendAll s rng (i + 1) a1 ds with
        | error e => simp [hs] at h
        | ok r =>
          obtain ⟨a2, ms'⟩ := r
          simp only [hs, Except.ok.injEq, Prod.mk.injEq] at h
          obtain ⟨rfl, rfl⟩ := h
          obtain ⟨h1, h2, h3⟩ := ih hs
          unfold Session.makeMessage at hm
          cases hd : s.round.makeDirect (sp.fork (sp.fork rng i) 0) d with
          | error e => simp [hd] at hm
          | ok q =>
            obtain ⟨p, v⟩ := q
            simp only [hd] at hm
            split at hm
            · simp at hm
            · simp only [Except.ok.injEq, Prod.mk.injEq] at hm
              obtain ⟨-, rfl⟩ := hm
              unfold Accum.addArtifact at ha
              split at ha
              · simp at ha
              · simp only [Except.ok.injEq] at ha
                subst ha
                simp only at h1 h2
                refine ⟨fun x => ?_, fun x w hw => ?_, by simp [h3]⟩
                · rw [h1 x, BMap.contains_insert]
                  by_cases hx : x = d <;> simp [hx]
                · rcases h2 x w hw with h | h
                  · rw [BMap.get?_insert] at h
                    split at h
                    · rename_i hx
                      simp only [Option.some.injEq] at h
                      subst h
                      subst hx
                      exact Or.inr ⟨_, _, hd⟩
                    · exact Or.inl h
                  · exact Or.inr h

theorem seqRound_artifacts {s : Session P} {rng : sp.Rng} {cached : List (VerifiedMessage sp)}
    {l : List (sp.Id × Message sp)} {b : Accum P} (h : SeqRound s rng cached l b) (x : sp.Id) :
    b.artifacts.contains x = s.comm.destinations.contains x ∧
      ∀ v, b.artifacts.get? x = some v → ∃ rng p, s.round.makeDirect rng x = .ok (p, v) := by
  obtain ⟨a, out, h1, h2⟩ := h
  unfold startRound at h1
  cases hs : sendAll s rng 0 s.makeAccum s.destinations.elems with
  | error e => simp [hs] at h1
  | ok r =>
    obtain ⟨a1, ms⟩ := r
    simp only [hs] at h1
    cases hf : foldE (applyVerified s) a1 cached with
    | error e => simp [hf] at h1
    | ok a2 =>
      simp only [hf, Except.ok.injEq, Prod.mk.injEq] at h1
      obtain ⟨rfl, rfl⟩ := h1
      have e1 := foldE_keeps (fun a : Accum P => a.artifacts) (fun _ _ _ h => applyVerified_artifacts h) hf
      have e2 := foldE_keeps (fun a : Accum P => a.artifacts) (fun _ _ _ h => deliver_artifacts h) h2
      rw [e2, e1]
      obtain ⟨k1, k2, -⟩ := sendAll_spec hs
      constructor
      · rw [k1 x]
        have hmem : (x ∈ s.destinations.elems) ↔ s.comm.destinations.contains x = true := BSet.mem_elems
        by_cases hx : s.comm.destinations.contains x = true
        · simp [hmem, hx]
        · have hx' : s.comm.destinations.contains x = false := by simpa using hx
          simp [hmem, hx', Session.makeAccum, Accum.new]
      · intro v hv
        rcases k2 x v hv with h | h
        · simp [Session.makeAccum, Accum.new] at h
        · exact h

/-! ### Messages kept for later -/

theorem filterMap_nodup {α β κ : Type} {f : α → Option β} {key : β → κ} {l : List α} (hl : l.Nodup)
    (hinj : ∀ x ∈ l, ∀ y ∈ l, ∀ u v, f x = some u → f y = some v → key u = key v → x = y) :
    ((l.filterMap f).map key).Nodup := by
  induction l with
  | nil => simp
  | cons a l ih =>
    rw [List.nodup_cons] at hl
    have ih' := ih hl.2 (fun x hx y hy => hinj x (List.mem_cons_of_mem _ hx) y (List.mem_cons_of_mem _ hy))
    cases hf : f a with
    | none => simpa [List.filterMap_cons, hf] using ih'
    | some b =>
      simp only [List.filterMap_cons, hf, List.map_cons, List.nodup_cons]
      refine ⟨?_, ih'⟩
      intro hmem
      obtain ⟨v, hv, hk⟩ := List.mem_map.1 hmem
      obtain ⟨y, hy, hfy⟩ := List.mem_filterMap.1 hv
      have := hinj a (List.mem_cons_self ..) y (List.mem_cons_of_mem _ hy) b v hf hfy hk.symm
      subst this
      exact hl.1 hy

theorem mem_filterMessages {c : BMap sp.Id (BMap RoundId (VerifiedMessage sp))} {rid : RoundId} {vm : VerifiedMessage sp} :
    vm ∈ Accum.filterMessages c rid ↔ ∃ x m, c.get? x = some m ∧ m.get? rid = some vm := by
  unfold Accum.filterMessages
  simp only [List.mem_filterMap, BMap.mem_values]
  constructor
  · rintro ⟨m, ⟨x, hx⟩, hm⟩; exact ⟨x, m, hx, hm⟩
  · rintro ⟨x, m, hx, hm⟩; exact ⟨m, ⟨x, hx⟩, hm⟩

theorem filterMessages_nodup {c : BMap sp.Id (BMap RoundId (VerifiedMessage sp))} {rid : RoundId}
    (h : ∀ x m, c.get? x = some m → ∀ r vm, m.get? r = some vm → vm.sender = x) :
    ((Accum.filterMessages c rid).map (fun m => m.sender)).Nodup := by
  unfold Accum.filterMessages BMap.values
  rw [List.filterMap_map]
  refine filterMap_nodup c.toList_nodup ?_
  rintro ⟨x, m⟩ hx ⟨y, n⟩ hy u v hu hv huv
  have h1 := BMap.mem_toList.1 hx
  have h2 := BMap.mem_toList.1 hy
  have e1 := h x m h1 rid u hu
  have e2 := h y n h2 rid v hv
  have : x = y := by rw [← e1, ← e2, huv]
  subst this
  rw [h1] at h2
  simp only [Option.some.injEq] at h2
  rw [h2]

/-- The invariant of the session part of a run. -/
structure VInv (s₀ s : Session P) (kept : List (VerifiedMessage sp)) : Prop where
  proper : Proper s
  sessionId : s.sessionId = s₀.sessionId
  signer : s.signer = s₀.signer
  authentic : ∀ vm ∈ kept, Authentic vm.sender s₀.sessionId s.roundId vm.direct vm.echo vm.normal
  nodup : (kept.map (fun m => m.sender)).Nodup
  /-- the echo round holds what its main round received -/
  payloads : ∀ e, s.round = .echo e → ∀ x v, e.payloads.get? x = some v →
    ∃ w, v = some w ∧ SignedPayload P s₀.sessionId e.main x w
  payloadKeys : ∀ e, s.round = .echo e → ∀ x, e.payloads.contains x = (P.comm e.main).expecting.contains x
  artifacts : ∀ e, s.round = .echo e → ∀ x v, e.artifacts.get? x = some v →
    ∃ w rng p, v = some w ∧ P.makeDirect e.main rng x = .ok (p, w)
  artifactKeys : ∀ e, s.round = .echo e → ∀ x, e.artifacts.contains x = (P.comm e.main).destinations.contains x

theorem main_receive {r : P.Rd} {x : sp.Id} {m : DynMsg} {v : Option P.Payload}
    (h : (SRound.main r).receive x m = .ok v) : ∃ w, v = some w ∧ P.receive r x m = .ok w := by
  simp only [SRound.receive] at h
  cases hr : P.receive r x m with
  | error e => simp [hr] at h
  | ok w =>
    simp only [hr, Except.ok.injEq] at h
    exact ⟨w, h.symm, rfl⟩

theorem main_makeDirect {r : P.Rd} {rng : sp.Rng} {x : sp.Id} {p : Part .direct} {v : Option P.Artifact}
    (h : (SRound.main r).makeDirect rng x = .ok (p, v)) : ∃ w, v = some w ∧ P.makeDirect r rng x = .ok (p, w) := by
  simp only [SRound.makeDirect] at h
  cases hr : P.makeDirect r rng x with
  | error e => simp [hr] at h
  | ok w =>
    obtain ⟨q, w⟩ := w
    simp only [hr, Except.ok.injEq, Prod.mk.injEq] at h
    obtain ⟨rfl, rfl⟩ := h
    exact ⟨w, rfl, rfl⟩

/-- The payload keys of a round that can be finalized. -/
theorem yes_keys {s : Session P} {a : Accum P} (hr : AccReach s a) (hy : a.canFinalize = .yes) (x : sp.Id) :
    a.payloads.contains x = s.comm.expecting.contains x := by
  obtain ⟨he, hi⟩ := reach_linv hr x
  have hall : ∀ k, a.expecting.contains k = true → a.payloads.contains k = true := by
    unfold Accum.canFinalize at hy
    split at hy
    · rename_i h
      intro k hk
      exact List.all_eq_true.1 h k (BSet.mem_elems.2 hk)
    · split at hy <;> simp at hy
  rw [← he]
  by_cases hx : a.expecting.contains x = true
  · rw [hx, hall x hx]
  · have hx' : a.expecting.contains x = false := by simpa using hx
    rw [hx']
    by_contra hp
    have : (a.loc x).payload.isSome = true := by
      simp only [Bool.not_eq_false] at hp
      simpa [contains_isSome, Accum.loc] using hp
    exact hx (hi.payload this).1

theorem roundId_main {s : Session P} (h : Proper s) {r : P.Rd} (hr : s.round = .main r) :
    s.transition = P.transition r ∧ s.comm = P.comm r := by
  have h1 := h.transition
  have h2 := h.comm
  rw [hr] at h1 h2
  simp only [SRound.transition, Except.ok.injEq] at h1
  exact ⟨h1.symm, h2⟩

theorem visits_inv {s₀ s : Session P} {trail : List (Session P × Accum P)} {cached : List (VerifiedMessage sp)}
    (hp : Proper s₀) (hm : ∃ r, s₀.round = .main r) (h : Visits s₀ trail s cached) : VInv s₀ s cached := by
  induction h with
  | first =>
    obtain ⟨r, hr⟩ := hm
    refine ⟨hp, rfl, rfl, by simp, by simp, ?_, ?_, ?_, ?_⟩ <;> (intro e he; rw [hr] at he; simp at he)
  | @next trail s s' cached cached' rng rng' l a hv hseq hy hf ih =>
    have hri := seqRound_rinv hseq (by rw [ih.sessionId]; exact ih.authentic)
    have hca : ∀ x m, a.cached.get? x = some m → ∀ r vm, m.get? r = some vm →
        vm.sender = x ∧ Authentic x s₀.sessionId r vm.direct vm.echo vm.normal := by
      intro x m hx r vm hvm
      obtain ⟨h1, -, -, -, h5⟩ := (hri x).cached m hx r vm hvm
      rw [ih.sessionId] at h5
      exact ⟨h1, h5⟩
    have hfm : ∀ rid, ∀ vm ∈ Accum.filterMessages a.cached rid,
        Authentic vm.sender s₀.sessionId rid vm.direct vm.echo vm.normal := by
      intro rid vm hvm
      obtain ⟨x, m, hx, hmv⟩ := mem_filterMessages.1 hvm
      obtain ⟨h1, h2⟩ := hca x m hx rid vm hmv
      rw [h1]
      exact h2
    have hnd := fun rid => filterMessages_nodup (rid := rid) (fun x m hx r vm hvm => (hca x m hx r vm hvm).1)
    obtain ⟨t, hu, hfin⟩ := finalizeRound_ok hf
    cases hfin with
    | @toEcho info r _ ebs hi hr he hns =>
      obtain ⟨htr, hcm⟩ := roundId_main ih.proper hr
      have hre : ∀ e, s'.round = .echo e → e.main = r ∧ e.payloads = a.payloads ∧ e.artifacts = a.artifacts := by
        intro e hre
        rw [hns.round] at hre
        simp only [SRound.echo.injEq] at hre
        subst hre
        exact ⟨rfl, rfl, rfl⟩
      refine ⟨hns.proper, hns.sessionId.trans ih.sessionId, hns.signer.trans ih.signer, hfm _, hnd _, ?_, ?_, ?_, ?_⟩
      · intro e he x v hx
        obtain ⟨e1, e2, e3⟩ := hre e he
        rw [e2] at hx
        obtain ⟨d, eb, n, hau, hrecv⟩ := (hri x).payload v hx
        rw [hr] at hrecv
        obtain ⟨w, rfl, hw⟩ := main_receive hrecv
        refine ⟨w, rfl, d, eb, n, ?_, by rw [e1]; exact hw⟩
        rw [e1, ← ih.sessionId, ← htr]
        exact hau
      · intro e he x
        obtain ⟨e1, e2, e3⟩ := hre e he
        rw [e1, e2, ← hcm]
        exact yes_keys (seqRound_reach hseq) hy x
      · intro e he x v hx
        obtain ⟨e1, e2, e3⟩ := hre e he
        rw [e3] at hx
        obtain ⟨rng, p, hmk⟩ := (seqRound_artifacts hseq x).2 v hx
        rw [hr] at hmk
        obtain ⟨w, rfl, hw⟩ := main_makeDirect hmk
        exact ⟨w, rng, p, rfl, by rw [e1]; exact hw⟩
      · intro e he x
        obtain ⟨e1, e2, e3⟩ := hre e he
        rw [e1, e3, ← hcm]
        exact (seqRound_artifacts hseq x).1
    | @toNext r _ hi hr hc hns hrid =>
      have hmain : ∀ e, s'.round ≠ .echo e := by
        intro e he
        rw [hns.round] at he
        simp at he
      refine ⟨hns.proper, hns.sessionId.trans ih.sessionId, hns.signer.trans ih.signer, ?_, ?_, ?_, ?_, ?_, ?_⟩
      · intro vm hvm
        rw [hrid]
        exact hfm _ vm (List.mem_filter.1 hvm).1
      · exact (hnd _).sublist ((List.filter_sublist).map _)
      all_goals intro e he; exact absurd he (hmain e)

/-! ## Steps within a run -/

theorem step_running {s s' : Session P} {a a' : Accum P} {ev : Event sp} {out : List (Message sp)}
    (h : step (.running s a) ev = some (.running s' a', out)) :
    (s' = s ∧ a.canFinalize = .notYet ∧ ∃ x m, ev = .deliver x m ∧ deliver s a x m = .ok a') ∨
      ∃ rng cached rng', a.canFinalize = .yes ∧ s.finalizeRound rng a = .ok (.anotherRound s' cached) ∧
        SeqRound s' rng' cached [] a' := by
  unfold step at h
  cases hc : a.canFinalize with
  | yes =>
    right
    cases ev with
    | tick rng =>
      simp only [hc, Option.some.injEq] at h
      unfold finishRound at h
      cases hf : s.finalizeRound (sp.fork rng 0) a with
      | error e => simp [hf] at h
      | ok o =>
        cases o with
        | finished r => simp [hf] at h
        | anotherRound s1 cached =>
          simp only [hf] at h
          have he : (enterRound s1 (sp.fork rng 1) cached).1 = .running s' a' := by rw [h]
          obtain ⟨rfl, hs⟩ := enter_running he
          exact ⟨_, cached, _, rfl, hf, hs⟩
    | deliver _ _ => simp [hc] at h
    | cancel => simp [hc] at h
    | close => simp [hc] at h
  | never =>
    cases ev with
    | tick rng => simp [hc] at h
    | deliver _ _ => simp [hc] at h
    | cancel => simp [hc] at h
    | close => simp [hc] at h
  | notYet =>
    left
    cases ev with
    | deliver x m =>
      simp only [hc] at h
      cases hd : deliver s a x m with
      | error e => simp [hd] at h
      | ok a1 =>
        simp only [hd, Option.some.injEq, Prod.mk.injEq, RunState.running.injEq] at h
        obtain ⟨⟨rfl, rfl⟩, -⟩ := h
        exact ⟨rfl, rfl, x, m, rfl, hd⟩
    | tick rng => simp [hc] at h
    | cancel => simp [hc] at h
    | close => simp [hc] at h

theorem banned_hist {s : Session P} {a b : Accum P} {ops : List (AccOp P)} (h : Hist s a ops b) {x : sp.Id}
    (hx : a.isBanned x = true) : b.isBanned x = true := by
  rw [banned_loc] at *
  refine hist_inv (I := fun l => l.banned = true) ?_ h x hx
  intro l op l' hl ha
  rcases applyLoc_cases ha with ⟨m, o, -, hp⟩ | ⟨p, -, -, -, hadd⟩ | ⟨p, -, -, rfl⟩
  · cases hp with
    | ignored _ => exact hl
    | refused _ _ => simp [Loc.banned]
    | process _ _ _ _ _ => exact hl
    | keep _ _ _ _ _ _ _ => exact hl
  · cases hadd with
    | payload _ => exact hl
    | provable _ _ => simp [Loc.banned]
    | unprovable _ => simp [Loc.banned]
  · exact hl

theorem finalized_transcript {s s' : Session P} {rng : sp.Rng} {a : Accum P} {cached : List (VerifiedMessage sp)}
    (h : s.finalizeRound rng a = .ok (.anotherRound s' cached)) :
    Updated s.transcript s.roundId s.me s.echo a s'.transcript := by
  obtain ⟨t, hu, hf⟩ := finalizeRound_ok h
  cases hf with
  | toEcho _ _ _ hns => rw [hns.transcript]; exact hu
  | toNext _ _ _ hns _ => rw [hns.transcript]; exact hu

/-- The messages a main round is entered with come from parties that are not banned. -/
theorem visits_unbanned {s₀ s : Session P} {trail : List (Session P × Accum P)} {cached : List (VerifiedMessage sp)}
    (h : Visits s₀ trail s cached) {r : P.Rd} (hr : s.round = .main r) :
    ∀ vm ∈ cached, s.transcript.isBanned vm.sender = false := by
  cases h with
  | first => simp
  | next hv hseq hy hf =>
    obtain ⟨t, hu, hfin⟩ := finalizeRound_ok hf
    cases hfin with
    | toEcho _ _ _ hns =>
      rw [hns.round] at hr
      simp at hr
    | toNext _ _ _ hns _ =>
      intro vm hvm
      rw [hns.transcript]
      simpa using (List.mem_filter.1 hvm).2

end Manul
