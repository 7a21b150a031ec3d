import Verif.Lemmas.Preprocess
import Verif.Spec.Ops

/-!
# Accumulator operations act locally

Every operation on a round accumulator caused by party `x` reads and writes only the entries of `x`.  This file makes that
precise: `Loc` is the part of an accumulator belonging to one party, each operation has a local counterpart, and the
operation on the accumulator is the local one applied to `x`'s part.
-/

namespace Manul

variable {sp : SP} {P : Proto sp}

/-- The part of an accumulator belonging to one party. -/
structure Loc {sp : SP} (P : Proto sp) where
  notSent : Bool
  processing : Bool
  payload : Option (Option P.Payload)
  artifact : Option (Option P.Artifact)
  cached : Option (BMap RoundId (VerifiedMessage sp))
  echo : Option (SignedPart .echo)
  normal : Option (SignedPart .normal)
  direct : Option (SignedPart .direct)
  provable : Option (Evidence sp)
  unprovable : Option RErr

namespace BMap

variable {K V : Type} [LinearOrder K]

/-- Set or remove a key. -/
def put (m : BMap K V) (k : K) : Option V → BMap K V
  | some v => m.insert k v
  | none => m.erase k

theorem get?_put (m : BMap K V) (k k' : K) (o : Option V) :
    (m.put k o).get? k' = if k' = k then o else m.get? k' := by
  cases o with
  | none => simp [put]
  | some v => simp [put]

end BMap

namespace BSet

variable {K : Type} [LinearOrder K]

/-- Add or remove an element. -/
def put (s : BSet K) (k : K) (b : Bool) : BSet K := if b then BSet.insert s k else BMap.erase s k

theorem contains_put (s : BSet K) (k k' : K) (b : Bool) :
    (BSet.put s k b).contains k' = if k' = k then b else s.contains k' := by
  unfold put
  cases b
  · by_cases h : k' = k <;> simp [h]
  · by_cases h : k' = k <;> simp [h]

end BSet

namespace Accum

/-- The part of `x`. -/
def loc (a : Accum P) (x : sp.Id) : Loc P where
  notSent := a.notSent.contains x
  processing := a.processing.contains x
  payload := a.payloads.get? x
  artifact := a.artifacts.get? x
  cached := a.cached.get? x
  echo := a.echos.get? x
  normal := a.normals.get? x
  direct := a.directs.get? x
  provable := a.provable.get? x
  unprovable := a.unprovable.get? x

/-- Replace the part of `x`. -/
def setLoc (a : Accum P) (x : sp.Id) (l : Loc P) : Accum P where
  notSent := BSet.put a.notSent x l.notSent
  expecting := a.expecting
  processing := BSet.put a.processing x l.processing
  payloads := a.payloads.put x l.payload
  artifacts := a.artifacts.put x l.artifact
  cached := a.cached.put x l.cached
  echos := a.echos.put x l.echo
  normals := a.normals.put x l.normal
  directs := a.directs.put x l.direct
  provable := a.provable.put x l.provable
  unprovable := a.unprovable.put x l.unprovable

theorem loc_ext {a b : Accum P} (he : a.expecting = b.expecting) (h : ∀ x, a.loc x = b.loc x) : a = b := by
  obtain ⟨a1, a2, a3, a4, a5, a6, a7, a8, a9, a10, a11⟩ := a
  obtain ⟨b1, b2, b3, b4, b5, b6, b7, b8, b9, b10, b11⟩ := b
  simp only [loc, Loc.mk.injEq] at h
  simp only at he
  subst he
  have e1 : a1 = b1 := BSet.ext_contains fun k => (h k).1
  have e3 : a3 = b3 := BSet.ext_contains fun k => (h k).2.1
  have e4 : a4 = b4 := BMap.ext fun k => (h k).2.2.1
  have e5 : a5 = b5 := BMap.ext fun k => (h k).2.2.2.1
  have e6 : a6 = b6 := BMap.ext fun k => (h k).2.2.2.2.1
  have e7 : a7 = b7 := BMap.ext fun k => (h k).2.2.2.2.2.1
  have e8 : a8 = b8 := BMap.ext fun k => (h k).2.2.2.2.2.2.1
  have e9 : a9 = b9 := BMap.ext fun k => (h k).2.2.2.2.2.2.2.1
  have e10 : a10 = b10 := BMap.ext fun k => (h k).2.2.2.2.2.2.2.2.1
  have e11 : a11 = b11 := BMap.ext fun k => (h k).2.2.2.2.2.2.2.2.2
  subst e1 e3 e4 e5 e6 e7 e8 e9 e10 e11
  rfl

theorem loc_setLoc (a : Accum P) (x y : sp.Id) (l : Loc P) :
    (a.setLoc x l).loc y = if y = x then l else a.loc y := by
  by_cases h : y = x
  · subst h
    simp [loc, setLoc, BMap.get?_put, BSet.contains_put]
  · simp [loc, setLoc, BMap.get?_put, BSet.contains_put, h]

@[simp] theorem loc_setLoc_same (a : Accum P) (x : sp.Id) (l : Loc P) : (a.setLoc x l).loc x = l := by
  rw [loc_setLoc, if_pos rfl]

theorem loc_setLoc_other (a : Accum P) {x y : sp.Id} (h : y ≠ x) (l : Loc P) : (a.setLoc x l).loc y = a.loc y := by
  rw [loc_setLoc, if_neg h]

@[simp] theorem expecting_setLoc (a : Accum P) (x : sp.Id) (l : Loc P) : (a.setLoc x l).expecting = a.expecting := rfl

/-- An accumulator that differs from `a` only at `x` is `a` with `x`'s part replaced. -/
theorem eq_setLoc {a b : Accum P} {x : sp.Id} (he : b.expecting = a.expecting) (h : ∀ y, y ≠ x → b.loc y = a.loc y) :
    b = a.setLoc x (b.loc x) := by
  refine loc_ext (by exact he) ?_
  intro y
  by_cases hy : y = x
  · subst hy
    simp
  · rw [loc_setLoc_other _ hy, h y hy]

end Accum

/-! ## Local operations -/

namespace Loc

/-- Banned in this round. -/
def banned (l : Loc P) : Bool := l.provable.isSome || l.unprovable.isSome

/-- Local `reject`. -/
def refuse (l : Loc P) (e : RErr) : Except LErr (Loc P × PreOutcome sp) :=
  if l.unprovable.isSome then .error .dupUnprovable else .ok ({ l with unprovable := some e }, .error e)

/-- A message for the round is in the cache. -/
def isCached (l : Loc P) (r : RoundId) : Bool :=
  match l.cached with
  | some e => e.contains r
  | none => false

/-- Local `verifyAndRoute`. -/
def route (l : Loc P) (x : sp.Id) (c : CheckedMessage) (thisRound : Bool) : Except LErr (Loc P × PreOutcome sp) :=
  match c.verify sp x with
  | .error .invalidSignature => l.refuse .badSignature
  | .error .signatureMismatch => l.refuse .sigMismatch
  | .error (.local e) => .error e
  | .ok vm =>
    if thisRound then
      if l.processing then .error .dupProcessing else .ok ({ l with processing := true }, .toProcess vm)
    else if (l.cached.getD BMap.empty).contains vm.metadata.roundId then .error .dupCached
    else .ok ({ l with cached := some ((l.cached.getD BMap.empty).insert vm.metadata.roundId vm) }, .cached)

/-- Local `preprocess`. -/
def pre (s : Session P) (x : sp.Id) (m : Message sp) (l : Loc P) : Except LErr (Loc P × PreOutcome sp) :=
  if s.transcript.isBanned x || l.banned then .ok (l, .error .banned)
  else
    match m.unifyMetadata with
    | none => l.refuse .metadata
    | some c =>
      if c.metadata.sessionId ≠ s.sessionId then l.refuse .session
      else
        match s.transition.simultaneousRounds s.echoInfo.isSome with
        | .error e => .error e
        | .ok acceptable =>
          if c.metadata.roundId = s.roundId then
            if l.processing then l.refuse .alreadyProcessing else l.route x c true
          else if acceptable.contains c.metadata.roundId then
            if l.isCached c.metadata.roundId then l.refuse .alreadyCached else l.route x c false
          else l.refuse .unexpectedRound

/-- Local `registerProvable`. -/
def prove (l : Loc P) (e : Evidence sp) : Except LErr (Loc P) :=
  if l.provable.isSome then .error .dupProvable else .ok { l with provable := some e }

/-- Local `insertPart`. -/
def storePart {k : PartKind} (o : Option (SignedPart k)) (p : SignedPart k) : Option (SignedPart k) :=
  if p.part.isNone then o else some p

/-- Local `addProcessed`. -/
def add (t : Transcript sp) (p : Processed P) (l : Loc P) : Except LErr (Loc P) :=
  let who := p.message.sender
  if l.payload.isSome then .error .dupPayload
  else if l.notSent = false then .error .unexpectedSender
  else
    let l' := { l with notSent := false }
    match p.result with
    | .ok payload => .ok
      { l' with
        echo := storePart l.echo p.message.echo
        normal := storePart l.normal p.message.normal
        direct := storePart l.direct p.message.direct
        payload := some payload }
    | .error .invalidDirect => l'.prove ⟨who, .invalidDirect p.message.direct⟩
    | .error .invalidEcho => l'.prove ⟨who, .invalidEchoBroadcast p.message.echo⟩
    | .error .invalidNormal => l'.prove ⟨who, .invalidNormal p.message.normal⟩
    | .error (.protocol required serialized) =>
      match Evidence.newProvableError who p.message.echo p.message.normal p.message.direct required serialized t with
      | .error e => .error e
      | .ok ev => l'.prove ev
    | .error (.unprovable e) => .ok { l' with unprovable := some e }
    | .error (.echo e) => l'.prove (Evidence.newEchoRoundError who p.message.normal e)
    | .error (.local e) => .error e

/-- Local `addArtifact`. -/
def art (p : ProcessedArtifact P) (l : Loc P) : Except LErr (Loc P) :=
  if l.artifact.isSome then .error .dupArtifact else .ok { l with artifact := some p.artifact }

end Loc

/-- Apply a local result to the accumulator. -/
def liftLoc (a : Accum P) (x : sp.Id) : Except LErr (Loc P) → Except LErr (Accum P)
  | .ok l => .ok (a.setLoc x l)
  | .error e => .error e

/-- Apply a local result with an outcome to the accumulator. -/
def liftLoc₂ {α : Type} (a : Accum P) (x : sp.Id) : Except LErr (Loc P × α) → Except LErr (Accum P × α)
  | .ok (l, o) => .ok (a.setLoc x l, o)
  | .error e => .error e

section

variable {a : Accum P} {x : sp.Id}

theorem contains_isSome {K V : Type} [LinearOrder K] (m : BMap K V) (k : K) : m.contains k = (m.get? k).isSome := by
  cases h : m.get? k with
  | none => simp [BMap.contains_eq_false.2 h]
  | some v => simp [BMap.contains_iff.2 ⟨v, h⟩]

theorem banned_loc : a.isBanned x = (a.loc x).banned := by
  simp [Accum.isBanned, Loc.banned, Accum.loc, contains_isSome]

theorem setLoc_loc : a.setLoc x (a.loc x) = a := by
  refine Accum.loc_ext (by rfl) ?_
  intro y
  rw [Accum.loc_setLoc]
  split
  · rename_i h; rw [h]
  · rfl

theorem reject_loc (e : RErr) : Session.reject a x e = liftLoc₂ a x ((a.loc x).refuse e) := by
  unfold Session.reject Accum.registerUnprovable Loc.refuse
  rw [contains_isSome]
  by_cases h : (a.unprovable.get? x).isSome = true
  · simp [h, Accum.loc, liftLoc₂]
  · have h' : (a.loc x).unprovable.isSome = false := by simpa [Accum.loc] using h
    simp only [h, h', Bool.false_eq_true, if_false, liftLoc₂]
    congr 2
    refine Accum.loc_ext (by rfl) ?_
    intro y
    rw [Accum.loc_setLoc]
    by_cases hy : y = x
    · subst hy; simp [Accum.loc]
    · simp [Accum.loc, hy]

theorem markProcessing_loc (m : VerifiedMessage sp) :
    a.markProcessing m = liftLoc a m.sender
      (if (a.loc m.sender).processing then .error .dupProcessing
        else .ok { a.loc m.sender with processing := true }) := by
  unfold Accum.markProcessing
  by_cases h : a.processing.contains m.sender = true
  · simp [h, Accum.loc, liftLoc]
  · have h' : (a.loc m.sender).processing = false := by simpa [Accum.loc] using h
    simp only [h, h', Bool.false_eq_true, if_false, liftLoc]
    congr 1
    refine Accum.loc_ext (by rfl) ?_
    intro y
    rw [Accum.loc_setLoc]
    by_cases hy : y = m.sender
    · subst hy; simp [Accum.loc]
    · simp [Accum.loc, hy]

theorem cacheMessage_loc (m : VerifiedMessage sp) :
    a.cacheMessage m = liftLoc a m.sender
      (if ((a.loc m.sender).cached.getD BMap.empty).contains m.metadata.roundId then .error .dupCached
        else .ok { a.loc m.sender with
          cached := some (((a.loc m.sender).cached.getD BMap.empty).insert m.metadata.roundId m) }) := by
  unfold Accum.cacheMessage
  simp only [Accum.loc]
  by_cases h : ((a.cached.get? m.sender).getD BMap.empty).contains m.metadata.roundId = true
  · simp [h, liftLoc]
  · simp only [h, Bool.false_eq_true, if_false, liftLoc]
    congr 1
    refine Accum.loc_ext (by rfl) ?_
    intro y
    rw [Accum.loc_setLoc]
    by_cases hy : y = m.sender
    · subst hy; simp [Accum.loc]
    · simp [Accum.loc, hy]

theorem route_loc (c : CheckedMessage) (b : Bool) :
    Session.verifyAndRoute a x c b = liftLoc₂ a x ((a.loc x).route x c b) := by
  unfold Session.verifyAndRoute Loc.route
  cases hv : c.verify sp x with
  | error e =>
    cases e with
    | «local» e => rfl
    | invalidSignature => exact reject_loc _
    | signatureMismatch => exact reject_loc _
  | ok vm =>
    have hs : vm.sender = x := by
      obtain ⟨-, -, -, rfl⟩ := checked_verify_ok.1 hv
      rfl
    subst hs
    cases b
    · simp only [cacheMessage_loc, Bool.false_eq_true, if_false]
      by_cases h : ((a.loc vm.sender).cached.getD BMap.empty).contains vm.metadata.roundId = true
      · simp only [h, if_true, liftLoc, liftLoc₂]
      · simp only [h, Bool.false_eq_true, if_false, liftLoc, liftLoc₂]
    · simp only [markProcessing_loc, if_true]
      by_cases h : (a.loc vm.sender).processing = true
      · simp only [h, if_true, liftLoc, liftLoc₂]
      · simp only [h, Bool.false_eq_true, if_false, liftLoc, liftLoc₂]

theorem isCached_loc (r : RoundId) : a.isCached x r = (a.loc x).isCached r := rfl

/-- Preprocessing acts on the sender's part only. -/
theorem preprocess_loc (s : Session P) (m : Message sp) :
    s.preprocess a x m = liftLoc₂ a x (Loc.pre s x m (a.loc x)) := by
  unfold Session.preprocess Loc.pre
  rw [banned_loc]
  split
  · simp only [liftLoc₂, setLoc_loc]
  · cases m.unifyMetadata with
    | none => exact reject_loc _
    | some c =>
      simp only
      split
      · exact reject_loc _
      · cases s.transition.simultaneousRounds s.echoInfo.isSome with
        | error e => rfl
        | ok acc =>
          simp only
          split
          · have : a.isProcessing x = (a.loc x).processing := rfl
            rw [this]
            split
            · exact reject_loc _
            · exact route_loc _ _
          · split
            · rw [isCached_loc]
              split
              · exact reject_loc _
              · exact route_loc _ _
            · exact reject_loc _

theorem prove_loc (e : Evidence sp) :
    ({ a with notSent := a.notSent.erase x } : Accum P).registerProvable x e =
      liftLoc a x (({ a.loc x with notSent := false } : Loc P).prove e) := by
  unfold Accum.registerProvable Loc.prove
  have hc : a.provable.contains x = (a.loc x).provable.isSome := contains_isSome _ _
  simp only [hc]
  by_cases h : (a.loc x).provable.isSome = true
  · simp only [h, if_true, liftLoc]
  · simp only [h, Bool.false_eq_true, if_false, liftLoc]
    congr 1
    refine Accum.loc_ext (by rfl) ?_
    intro y
    rw [Accum.loc_setLoc]
    by_cases hy : y = x
    · subst hy; simp [Accum.loc]
    · simp [Accum.loc, hy]

theorem get?_insertPart {k : PartKind} (m : BMap sp.Id (SignedPart k)) (who y : sp.Id) (p : SignedPart k) :
    (Accum.insertPart m who p).get? y = if y = who then Loc.storePart (m.get? who) p else m.get? y := by
  unfold Accum.insertPart Loc.storePart
  by_cases h : p.part.isNone = true
  · by_cases hy : y = who <;> simp [h, hy]
  · by_cases hy : y = who <;> simp [h, hy]

/-- Adding a processed message acts on the sender's part only. -/
theorem addProcessed_loc (t : Transcript sp) (p : Processed P) :
    a.addProcessed t p = liftLoc a p.message.sender (Loc.add t p (a.loc p.message.sender)) := by
  unfold Accum.addProcessed Loc.add
  have h1 : a.payloads.contains p.message.sender = (a.loc p.message.sender).payload.isSome := by
    simp [contains_isSome, Accum.loc]
  have h2 : a.notSent.contains p.message.sender = (a.loc p.message.sender).notSent := rfl
  simp only [h1, h2]
  split
  · rfl
  · split
    · rfl
    · cases hr : p.result with
      | ok payload =>
        simp only [liftLoc]
        congr 1
        refine Accum.loc_ext (by rfl) ?_
        intro y
        rw [Accum.loc_setLoc]
        by_cases hy : y = p.message.sender
        · subst hy; simp [Accum.loc, get?_insertPart]
        · simp [Accum.loc, hy, get?_insertPart]
      | error e =>
        cases e with
        | «local» e => rfl
        | invalidDirect => exact prove_loc _
        | invalidEcho => exact prove_loc _
        | invalidNormal => exact prove_loc _
        | protocol req ser =>
          simp only
          cases Evidence.newProvableError p.message.sender p.message.echo p.message.normal p.message.direct req ser t with
          | error e => rfl
          | ok ev => exact prove_loc _
        | unprovable e =>
          simp only [liftLoc]
          congr 1
          refine Accum.loc_ext (by rfl) ?_
          intro y
          rw [Accum.loc_setLoc]
          by_cases hy : y = p.message.sender
          · subst hy; simp [Accum.loc]
          · simp [Accum.loc, hy]
        | echo e => exact prove_loc _

/-- Adding an artifact acts on the destination's part only. -/
theorem addArtifact_loc (p : ProcessedArtifact P) :
    a.addArtifact p = liftLoc a p.destination (Loc.art p (a.loc p.destination)) := by
  unfold Accum.addArtifact Loc.art
  have h1 : a.artifacts.contains p.destination = (a.loc p.destination).artifact.isSome := by
    simp [contains_isSome, Accum.loc]
  rw [h1]
  split
  · rfl
  · simp only [liftLoc]
    congr 1
    refine Accum.loc_ext (by rfl) ?_
    intro y
    rw [Accum.loc_setLoc]
    by_cases hy : y = p.destination
    · subst hy; simp [Accum.loc]
    · simp [Accum.loc, hy]

end

/-! ## Operations and histories -/

namespace AccOp

/-- The operation on the party's part. -/
def applyLoc (s : Session P) (l : Loc P) : AccOp P → Except LErr (Loc P)
  | .pre x m =>
    match Loc.pre s x m l with
    | .error e => .error e
    | .ok (l', _) => .ok l'
  | .add p => Loc.add s.transcript p l
  | .art p => Loc.art p l

theorem apply_loc (s : Session P) (a : Accum P) (op : AccOp P) :
    op.apply s a = liftLoc a op.party (op.applyLoc s (a.loc op.party)) := by
  cases op with
  | pre x m =>
    simp only [apply, applyLoc, preprocess_loc, party]
    cases Loc.pre s x m (a.loc x) with
    | error e => rfl
    | ok r => rfl
  | add p => exact addProcessed_loc _ _
  | art p => exact addArtifact_loc _

end AccOp

/-- The result of a sequence of local steps is described party by party. -/
theorem fold_loc {α : Type} (party : α → sp.Id) (f : Accum P → α → Except LErr (Accum P))
    (g : Loc P → α → Except LErr (Loc P)) (hfg : ∀ a x, f a x = liftLoc a (party x) (g (a.loc (party x)) x))
    (ops : List α) (a b : Accum P) :
    foldE f a ops = .ok b ↔
      b.expecting = a.expecting ∧
        ∀ x, foldE g (a.loc x) (ops.filter (fun op => party op = x)) = .ok (b.loc x) := by
  induction ops generalizing a with
  | nil =>
    simp only [foldE, List.filter_nil, Except.ok.injEq]
    constructor
    · rintro rfl
      exact ⟨rfl, fun _ => rfl⟩
    · rintro ⟨h1, h2⟩
      exact Accum.loc_ext h1.symm h2
  | cons op ops ih =>
    simp only [foldE]
    rw [hfg]
    cases hl : g (a.loc (party op)) op with
    | error e =>
      simp only [liftLoc, reduceCtorEq, false_iff, not_and, not_forall]
      intro _
      refine ⟨party op, ?_⟩
      simp [foldE, hl]
    | ok l =>
      simp only [liftLoc, ih, Accum.expecting_setLoc]
      apply and_congr_right
      intro _
      apply forall_congr'
      intro x
      by_cases hx : party op = x
      · subst hx
        simp [foldE, hl]
      · simp [hx, Accum.loc_setLoc_other _ (Ne.symm hx)]

/-- A history is described party by party. -/
theorem hist_loc {s : Session P} {ops : List (AccOp P)} {a b : Accum P} :
    Hist s a ops b ↔
      b.expecting = a.expecting ∧
        ∀ x, foldE (fun l op => AccOp.applyLoc s l op) (a.loc x) (ops.filter (fun op => op.party = x)) =
          .ok (b.loc x) :=
  fold_loc AccOp.party _ _ (AccOp.apply_loc s) ops a b

/-- Local `deliver`. -/
def Loc.deliver (s : Session P) (x : sp.Id) (m : Message sp) (l : Loc P) : Except LErr (Loc P) :=
  match Loc.pre s x m l with
  | .error e => .error e
  | .ok (l', o) =>
    match o.ok? with
    | some vm => Loc.add s.transcript (s.process vm) l'
    | none => .ok l'

/-- A message handed on for processing is attributed to the sender given. -/
theorem route_sender {l l' : Loc P} {x : sp.Id} {c : CheckedMessage} {b : Bool} {vm : VerifiedMessage sp}
    (h : l.route x c b = .ok (l', .toProcess vm)) : vm.sender = x := by
  unfold Loc.route at h
  cases hv : c.verify sp x with
  | error e => cases e <;> simp only [hv, Loc.refuse] at h <;> (try split at h) <;> simp at h
  | ok w =>
    obtain ⟨-, -, -, rfl⟩ := checked_verify_ok.1 hv
    simp only [hv] at h
    split at h
    · split at h
      · simp at h
      · simp only [Except.ok.injEq, Prod.mk.injEq, PreOutcome.toProcess.injEq] at h
        rw [← h.2]
    · split at h <;> simp at h

/-- A message handed on for processing is attributed to the sender given. -/
theorem pre_sender {l l' : Loc P} {s : Session P} {x : sp.Id} {m : Message sp} {vm : VerifiedMessage sp}
    (h : Loc.pre s x m l = .ok (l', .toProcess vm)) : vm.sender = x := by
  unfold Loc.pre Loc.refuse at h
  repeat' split at h
  all_goals first
    | exact route_sender h
    | simp at h

theorem deliver_loc (s : Session P) (a : Accum P) (x : sp.Id) (m : Message sp) :
    deliver s a x m = liftLoc a x (Loc.deliver s x m (a.loc x)) := by
  unfold deliver Loc.deliver
  rw [preprocess_loc]
  cases hp : Loc.pre s x m (a.loc x) with
  | error e => rfl
  | ok r =>
    obtain ⟨l', o⟩ := r
    simp only [liftLoc₂]
    cases o with
    | toProcess vm =>
      have hs := pre_sender hp
      simp only [PreOutcome.ok?, applyVerified, Session.addProcessed, addProcessed_loc, Session.process, hs,
        Accum.loc_setLoc_same]
      cases Loc.add s.transcript ⟨vm, s.round.receive x vm.dyn⟩ l' with
      | error e => rfl
      | ok l =>
        simp only [liftLoc]
        congr 1
        refine Accum.loc_ext (by rfl) ?_
        intro y
        simp only [Accum.loc_setLoc]
        split <;> rfl
    | cached => rfl
    | error e => rfl

end Manul
