import Verif.Lemmas.Local

/-!
# Invariants of the accumulator
-/

namespace Manul

variable {sp : SP} {P : Proto sp}

/-- The evidence `add_processed_message` records for a failed message. -/
inductive Recorded (t : Transcript sp) (p : Processed P) : Evidence sp → Prop where
  | direct : p.result = .error .invalidDirect → Recorded t p ⟨p.message.sender, .invalidDirect p.message.direct⟩
  | echoBroadcast : p.result = .error .invalidEcho →
      Recorded t p ⟨p.message.sender, .invalidEchoBroadcast p.message.echo⟩
  | normal : p.result = .error .invalidNormal → Recorded t p ⟨p.message.sender, .invalidNormal p.message.normal⟩
  | protocol {req : RequiredMessages} {ser : Except LErr Bytes} {ev : Evidence sp} :
      p.result = .error (.protocol req ser) →
      Evidence.newProvableError p.message.sender p.message.echo p.message.normal p.message.direct req ser t = .ok ev →
      Recorded t p ev
  | echo {e : EchoErr sp} : p.result = .error (.echo e) →
      Recorded t p (Evidence.newEchoRoundError p.message.sender p.message.normal e)

/-- The possible results of adding a processed message. -/
inductive Added (t : Transcript sp) (p : Processed P) (l : Loc P) : Loc P → Prop where
  | payload {v : Option P.Payload} : p.result = .ok v →
      Added t p l { l with
        notSent := false
        echo := Loc.storePart l.echo p.message.echo
        normal := Loc.storePart l.normal p.message.normal
        direct := Loc.storePart l.direct p.message.direct
        payload := some v }
  | provable {ev : Evidence sp} : l.provable = none → Recorded t p ev →
      Added t p l { l with notSent := false, provable := some ev }
  | unprovable {e : RErr} : p.result = .error (.unprovable e) →
      Added t p l { l with notSent := false, unprovable := some e }

theorem prove_ok {l l' : Loc P} {e : Evidence sp} :
    l.prove e = .ok l' ↔ l.provable = none ∧ l' = { l with provable := some e } := by
  unfold Loc.prove
  cases h : l.provable with
  | none => simp [eq_comm]
  | some v => simp

theorem add_ok {t : Transcript sp} {p : Processed P} {l l' : Loc P} (h : Loc.add t p l = .ok l') :
    l.payload = none ∧ l.notSent = true ∧ Added t p l l' := by
  unfold Loc.add at h
  by_cases h1 : l.payload.isSome = true
  · simp [h1] at h
  · by_cases h2 : l.notSent = false
    · simp [h1, h2] at h
    · rw [if_neg h1, if_neg h2] at h
      refine ⟨by simpa using h1, by simpa using h2, ?_⟩
      cases hr : p.result with
      | ok v =>
        simp only [hr, Except.ok.injEq] at h
        subst h
        exact .payload hr
      | error e =>
        cases e with
        | «local» e => simp [hr] at h
        | invalidDirect =>
          simp only [hr, prove_ok] at h
          obtain ⟨h3, rfl⟩ := h
          exact .provable h3 (.direct hr)
        | invalidEcho =>
          simp only [hr, prove_ok] at h
          obtain ⟨h3, rfl⟩ := h
          exact .provable h3 (.echoBroadcast hr)
        | invalidNormal =>
          simp only [hr, prove_ok] at h
          obtain ⟨h3, rfl⟩ := h
          exact .provable h3 (.normal hr)
        | protocol req ser =>
          simp only [hr] at h
          cases hev : Evidence.newProvableError p.message.sender p.message.echo p.message.normal p.message.direct req
              ser t with
          | error e => simp [hev] at h
          | ok ev =>
            simp only [hev, prove_ok] at h
            obtain ⟨h3, rfl⟩ := h
            exact .provable h3 (.protocol hr hev)
        | unprovable e =>
          simp only [hr, Except.ok.injEq] at h
          subst h
          exact .unprovable hr
        | echo e =>
          simp only [hr, prove_ok] at h
          obtain ⟨h3, rfl⟩ := h
          exact .provable h3 (.echo hr)

/-- The possible results of preprocessing. -/
inductive Pre (s : Session P) (x : sp.Id) (m : Message sp) (l : Loc P) : Loc P × PreOutcome sp → Prop where
  | ignored : s.transcript.isBanned x = true ∨ l.banned = true → Pre s x m l (l, .error .banned)
  | refused {e : RErr} : s.transcript.isBanned x = false → l.banned = false →
      Pre s x m l ({ l with unprovable := some e }, .error e)
  | process {vm : VerifiedMessage sp} : s.transcript.isBanned x = false → l.banned = false → l.processing = false →
      vm = verifiedOf x m → Authentic x s.sessionId s.roundId m.direct m.echo m.normal →
      Pre s x m l ({ l with processing := true }, .toProcess vm)
  | keep {vm : VerifiedMessage sp} : s.transcript.isBanned x = false → l.banned = false →
      (l.cached.getD BMap.empty).contains vm.metadata.roundId = false →
      vm = verifiedOf x m → Authentic x s.sessionId vm.metadata.roundId m.direct m.echo m.normal →
      vm.metadata.roundId ≠ s.roundId → Simultaneous s vm.metadata.roundId →
      Pre s x m l ({ l with cached := some ((l.cached.getD BMap.empty).insert vm.metadata.roundId vm) }, .cached)

theorem not_banned_unprovable {l : Loc P} (h : l.banned = false) : l.unprovable = none ∧ l.provable = none := by
  unfold Loc.banned at h
  cases h1 : l.unprovable <;> cases h2 : l.provable <;> simp_all

theorem simultaneous_of_ok {s : Session P} {acc : BSet RoundId}
    (h : s.transition.simultaneousRounds s.echoInfo.isSome = .ok acc) (r : RoundId) :
    acc.contains r = true ↔ Simultaneous s r :=
  (C36_simultaneous s.transition s.echoInfo.isSome).1 acc h r

theorem pre_ok {s : Session P} {x : sp.Id} {m : Message sp} {l : Loc P} {r : Loc P × PreOutcome sp}
    (h : Loc.pre s x m l = .ok r) : Pre s x m l r := by
  unfold Loc.pre at h
  by_cases hb : (s.transcript.isBanned x || l.banned) = true
  · simp only [hb, if_true, Except.ok.injEq] at h
    subst h
    exact .ignored (by simpa using hb)
  · have hb' : s.transcript.isBanned x = false ∧ l.banned = false := by simpa using hb
    obtain ⟨hb1, hb2⟩ := hb'
    have hu := (not_banned_unprovable hb2).1
    have hrefuse : ∀ e, l.refuse e = .ok r → Pre s x m l r := by
      intro e he
      simp only [Loc.refuse, hu, Option.isSome_none, Bool.false_eq_true, if_false, Except.ok.injEq] at he
      subst he
      exact .refused hb1 hb2
    simp only [hb, Bool.false_eq_true, if_false] at h
    cases hm : m.unifyMetadata with
    | none => simp only [hm] at h; exact hrefuse _ h
    | some c =>
      simp only [hm] at h
      have hc := unify_some.1 hm
      split at h
      · exact hrefuse _ h
      · rename_i hsid
        have hsid : c.metadata.sessionId = s.sessionId := not_not.1 hsid
        cases hsr : s.transition.simultaneousRounds s.echoInfo.isSome with
        | error e => simp [hsr] at h
        | ok acc =>
          simp only [hsr] at h
          have hroute : ∀ b, l.route x c b = .ok r →
              (∃ vm, c.verify sp x = .ok vm) ∨ ∃ e, l.refuse e = .ok r := by
            intro b hh
            unfold Loc.route at hh
            cases hv : c.verify sp x with
            | error e => cases e <;> simp only [hv] at hh <;> first | exact Or.inr ⟨_, hh⟩ | simp at hh
            | ok vm => exact Or.inl ⟨vm, rfl⟩
          split at h
          · rename_i hrid
            split at h
            · exact hrefuse _ h
            · rename_i hproc
              rcases hroute _ h with ⟨vm, hv⟩ | ⟨e, he⟩
              · simp only [Loc.route, hv, if_true, hproc, Bool.false_eq_true, if_false, Except.ok.injEq] at h
                subst h
                have hok := checked_verify_ok.1 hv
                obtain ⟨hinc, rfl⟩ := hc
                obtain ⟨he, hn⟩ : m.echo.metadata = m.direct.metadata ∧ m.normal.metadata = m.direct.metadata := by
                  simpa [Incoherent] using hinc
                obtain ⟨h1, h2, h3, rfl⟩ := hok
                simp only at hsid hrid he hn h1 h2 h3
                refine .process hb1 hb2 (by simpa using hproc) rfl ?_
                refine ⟨⟨?_, h1⟩, ⟨?_, h2⟩, ⟨?_, h3⟩⟩
                · rw [← hsid, ← hrid]
                · rw [← hsid, ← hrid, he]
                · rw [← hsid, ← hrid, hn]
              · exact hrefuse _ he
          · rename_i hrid
            split at h
            · rename_i hacc
              split at h
              · exact hrefuse _ h
              · rename_i hnc
                rcases hroute _ h with ⟨vm, hv⟩ | ⟨e, he⟩
                · have hok := checked_verify_ok.1 hv
                  obtain ⟨hinc, rfl⟩ := hc
                  obtain ⟨he, hn⟩ : m.echo.metadata = m.direct.metadata ∧ m.normal.metadata = m.direct.metadata := by
                    simpa [Incoherent] using hinc
                  obtain ⟨h1, h2, h3, rfl⟩ := hok
                  simp only at hsid hrid he hn h1 h2 h3 hacc
                  have hfree : (l.cached.getD BMap.empty).contains m.direct.metadata.roundId = false := by
                    unfold Loc.isCached at hnc
                    cases hcc : l.cached with
                    | none => simp
                    | some e => simpa [hcc] using hnc
                  simp only [Loc.route, hv, Bool.false_eq_true, if_false, hfree, Except.ok.injEq] at h
                  subst h
                  refine Pre.keep (vm := ⟨x, m.direct.metadata, m.direct, m.echo, m.normal⟩) hb1 hb2 hfree rfl ?_ hrid
                    ((simultaneous_of_ok hsr _).1 hacc)
                  refine ⟨⟨?_, h1⟩, ⟨?_, h2⟩, ⟨?_, h3⟩⟩
                  · rw [← hsid]
                  · rw [← hsid, he]
                  · rw [← hsid, hn]
                · exact hrefuse _ he
            · exact hrefuse _ h

/-! ## Local invariant -/

/-- What holds of every party's part in a reachable accumulator; `exp` says whether the party is expected. -/
structure LInv (exp : Bool) (l : Loc P) : Prop where
  notSent : l.notSent = true → exp = true
  payload : l.payload.isSome = true → exp = true ∧ l.notSent = false ∧ l.provable = none
  provable : l.provable.isSome = true → exp = true ∧ l.notSent = false
  heard : exp = true → l.notSent = false → l.payload.isSome = true ∨ l.banned = true
  echo : l.echo.isSome = true → l.payload.isSome = true
  normal : l.normal.isSome = true → l.payload.isSome = true
  direct : l.direct.isSome = true → l.payload.isSome = true

theorem LInv.of_notSent {exp : Bool} {l : Loc P} (h : LInv exp l) (hn : l.notSent = true) :
    l.payload = none ∧ l.provable = none := by
  constructor
  · by_contra hc
    have := (h.payload (Option.isSome_iff_ne_none.2 hc)).2.1
    simp [hn] at this
  · by_contra hc
    have := (h.provable (Option.isSome_iff_ne_none.2 hc)).2
    simp [hn] at this

theorem LInv.pre {exp : Bool} {s : Session P} {x : sp.Id} {m : Message sp} {l : Loc P} {r : Loc P × PreOutcome sp}
    (h : LInv exp l) (hp : Pre s x m l r) : LInv exp r.1 := by
  obtain ⟨h1, h2, h3, h4, h5, h6, h7⟩ := h
  cases hp with
  | ignored _ => exact ⟨h1, h2, h3, h4, h5, h6, h7⟩
  | refused _ _ => exact ⟨h1, h2, h3, fun _ _ => Or.inr (by simp [Loc.banned]), h5, h6, h7⟩
  | process _ _ _ _ _ => exact ⟨h1, h2, h3, h4, h5, h6, h7⟩
  | keep _ _ _ _ _ _ _ => exact ⟨h1, h2, h3, h4, h5, h6, h7⟩

theorem LInv.add {exp : Bool} {t : Transcript sp} {p : Processed P} {l l' : Loc P} (h : LInv exp l)
    (hn : l.notSent = true) (ha : Added t p l l') : LInv exp l' := by
  have hx := h.notSent hn
  have hp := h.of_notSent hn
  obtain ⟨h1, h2, h3, h4, h5, h6, h7⟩ := h
  cases ha with
  | payload _ => exact ⟨by simp, fun _ => ⟨hx, rfl, hp.2⟩, fun hc => by simp [hp.2] at hc, by simp, by simp, by simp, by simp⟩
  | provable _ _ =>
    refine ⟨by simp, fun hc => by simp [hp.1] at hc, fun _ => ⟨hx, rfl⟩, fun _ _ => Or.inr (by simp [Loc.banned]), ?_, ?_, ?_⟩
    · exact h5
    · exact h6
    · exact h7
  | unprovable _ =>
    refine ⟨by simp, fun hc => by simp [hp.1] at hc, fun hc => by simp [hp.2] at hc,
      fun _ _ => Or.inr (by simp [Loc.banned]), ?_, ?_, ?_⟩
    · exact h5
    · exact h6
    · exact h7

theorem LInv.art {exp : Bool} {p : ProcessedArtifact P} {l l' : Loc P} (h : LInv exp l) (ha : Loc.art p l = .ok l') :
    LInv exp l' := by
  unfold Loc.art at ha
  split at ha
  · simp at ha
  · simp only [Except.ok.injEq] at ha
    subst ha
    obtain ⟨h1, h2, h3, h4, h5, h6, h7⟩ := h
    exact ⟨h1, h2, h3, h4, h5, h6, h7⟩

/-- A step of a history on a party's part. -/
theorem applyLoc_cases {s : Session P} {op : AccOp P} {l l' : Loc P} (h : AccOp.applyLoc s l op = .ok l') :
    (∃ m o, op = .pre op.party m ∧ Pre s op.party m l (l', o)) ∨
      (∃ p, op = .add p ∧ l.payload = none ∧ l.notSent = true ∧ Added s.transcript p l l') ∨
      (∃ p, op = .art p ∧ l.artifact = none ∧ l' = { l with artifact := some p.artifact }) := by
  cases op with
  | pre x m =>
    left
    simp only [AccOp.applyLoc] at h
    cases hp : Loc.pre s x m l with
    | error e => simp [hp] at h
    | ok r =>
      obtain ⟨l1, o⟩ := r
      simp only [hp, Except.ok.injEq] at h
      subst h
      exact ⟨m, o, rfl, pre_ok hp⟩
  | add p =>
    right; left
    exact ⟨p, rfl, add_ok h⟩
  | art p =>
    right; right
    refine ⟨p, rfl, ?_⟩
    simp only [AccOp.applyLoc, Loc.art] at h
    cases ha : l.artifact with
    | some v => simp [ha] at h
    | none =>
      simp only [ha, Option.isSome_none, Bool.false_eq_true, if_false, Except.ok.injEq] at h
      exact ⟨rfl, h.symm⟩

theorem LInv.step {exp : Bool} {s : Session P} {op : AccOp P} {l l' : Loc P} (h : LInv exp l)
    (ha : AccOp.applyLoc s l op = .ok l') : LInv exp l' := by
  rcases applyLoc_cases ha with ⟨m, o, -, hp⟩ | ⟨p, -, -, hn, hadd⟩ | ⟨p, -, -, rfl⟩
  · exact h.pre hp
  · exact h.add hn hadd
  · obtain ⟨h1, h2, h3, h4, h5, h6, h7⟩ := h
    exact ⟨h1, h2, h3, h4, h5, h6, h7⟩

/-- An invariant of the local steps holds along a local history. -/
theorem local_inv {s : Session P} {I : Loc P → Prop} (hstep : ∀ l op l', I l → AccOp.applyLoc s l op = .ok l' → I l')
    {ops : List (AccOp P)} {l l' : Loc P} (h : foldE (fun l op => AccOp.applyLoc s l op) l ops = .ok l') (h0 : I l) :
    I l' := by
  induction ops generalizing l with
  | nil =>
    simp only [foldE, Except.ok.injEq] at h
    exact h ▸ h0
  | cons op ops ih =>
    simp only [foldE] at h
    cases ha : AccOp.applyLoc s l op with
    | error e => simp [ha] at h
    | ok l1 =>
      simp only [ha] at h
      exact ih h (hstep _ _ _ h0 ha)

/-- An invariant of the local steps holds along a history. -/
theorem hist_inv {s : Session P} {I : Loc P → Prop} (hstep : ∀ l op l', I l → AccOp.applyLoc s l op = .ok l' → I l')
    {ops : List (AccOp P)} {a b : Accum P} (h : Hist s a ops b) (x : sp.Id) (h0 : I (a.loc x)) : I (b.loc x) :=
  local_inv hstep ((hist_loc.1 h).2 x) h0

/-- The same for an invariant that uses whose part it is. -/
theorem hist_inv' {s : Session P} {x : sp.Id} {I : Loc P → Prop}
    (hstep : ∀ l op l', op.party = x → I l → AccOp.applyLoc s l op = .ok l' → I l')
    {ops : List (AccOp P)} {a b : Accum P} (h : Hist s a ops b) (h0 : I (a.loc x)) : I (b.loc x) := by
  have hx := (hist_loc.1 h).2 x
  have key : ∀ (os : List (AccOp P)) (l l' : Loc P), (∀ op ∈ os, op.party = x) →
      foldE (fun l op => AccOp.applyLoc s l op) l os = .ok l' → I l → I l' := by
    intro os
    induction os with
    | nil =>
      intro l l' _ h hl
      simp only [foldE, Except.ok.injEq] at h
      exact h ▸ hl
    | cons op os ih =>
      intro l l' ho h hl
      simp only [foldE] at h
      cases ha : AccOp.applyLoc s l op with
      | error e => simp [ha] at h
      | ok l1 =>
        simp only [ha] at h
        exact ih l1 l' (fun o hm => ho o (List.mem_cons_of_mem _ hm)) h (hstep _ _ _ (ho op (List.mem_cons_self ..)) hl ha)
  refine key _ _ _ ?_ hx h0
  intro op hop
  simpa using (List.mem_filter.1 hop).2

theorem hist_expecting {s : Session P} {ops : List (AccOp P)} {a b : Accum P} (h : Hist s a ops b) :
    b.expecting = a.expecting := (hist_loc.1 h).1

theorem linv_new (exp : BSet sp.Id) (x : sp.Id) : LInv (exp.contains x) ((Accum.new exp : Accum P).loc x) := by
  constructor <;> simp [Accum.loc, Accum.new]
  intro h1 h2
  simp [h1] at h2

theorem reach_linv {s : Session P} {a : Accum P} (h : AccReach s a) (x : sp.Id) :
    a.expecting = s.comm.expecting ∧ LInv (a.expecting.contains x) (a.loc x) := by
  obtain ⟨ops, h⟩ := h
  have he : a.expecting = s.comm.expecting := hist_expecting h
  refine ⟨he, ?_⟩
  rw [he]
  exact hist_inv (I := LInv (s.comm.expecting.contains x)) (fun _ _ _ hl ha => hl.step ha) h x (linv_new _ x)

theorem hist_append {s : Session P} {ops ops' : List (AccOp P)} {a b c : Accum P} (h : Hist s a ops b)
    (h' : Hist s b ops' c) : Hist s a (ops ++ ops') c := by
  unfold Hist at *
  induction ops generalizing a with
  | nil =>
    simp only [foldE, Except.ok.injEq] at h
    subst h
    simpa using h'
  | cons op ops ih =>
    simp only [List.cons_append, foldE] at *
    cases ha : AccOp.apply s a op with
    | error e => simp [ha] at h
    | ok a1 =>
      simp only [ha] at h ⊢
      exact ih h

/-- The calls made by `deliver`. -/
theorem deliver_hist {s : Session P} {a b : Accum P} {x : sp.Id} {m : Message sp} (h : deliver s a x m = .ok b) :
    ∃ ops, Hist s a ops b ∧ ∀ op ∈ ops, op.party = x := by
  unfold deliver at h
  cases hp : s.preprocess a x m with
  | error e => simp [hp] at h
  | ok r =>
    obtain ⟨a1, o⟩ := r
    simp only [hp] at h
    have h1 : Hist s a [.pre x m] a1 := by simp [Hist, foldE, AccOp.apply, hp]
    cases o with
    | toProcess vm =>
      have hs : vm.sender = x := by
        rw [preprocess_loc] at hp
        cases hl : Loc.pre s x m (a.loc x) with
        | error e => simp [hl, liftLoc₂] at hp
        | ok r =>
          obtain ⟨l', o'⟩ := r
          simp only [hl, liftLoc₂, Except.ok.injEq, Prod.mk.injEq] at hp
          obtain ⟨-, rfl⟩ := hp
          exact pre_sender hl
      refine ⟨[.pre x m] ++ [.add (s.process vm)], hist_append h1 ?_, ?_⟩
      · simp only [PreOutcome.ok?, applyVerified] at h
        simp [Hist, foldE, AccOp.apply, h]
      · simp [AccOp.party, Session.process, hs]
    | cached =>
      simp only [PreOutcome.ok?, Except.ok.injEq] at h
      subst h
      exact ⟨_, h1, by simp [AccOp.party]⟩
    | error e =>
      simp only [PreOutcome.ok?, Except.ok.injEq] at h
      subst h
      exact ⟨_, h1, by simp [AccOp.party]⟩

theorem deliveries_hist {s : Session P} {a b : Accum P} {l : List (sp.Id × Message sp)} (h : Deliveries s a l b) :
    ∃ ops, Hist s a ops b := by
  unfold Deliveries at h
  induction l generalizing a with
  | nil => exact ⟨[], h⟩
  | cons x l ih =>
    simp only [foldE] at h
    cases hd : deliver s a x.1 x.2 with
    | error e => simp [hd] at h
    | ok a1 =>
      simp only [hd] at h
      obtain ⟨ops, h1, -⟩ := deliver_hist hd
      obtain ⟨ops', h2⟩ := ih h
      exact ⟨_, hist_append h1 h2⟩

end Manul
