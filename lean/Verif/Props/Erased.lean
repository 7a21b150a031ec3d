import Verif.Lemmas.Erased
import Verif.Props.Run
import Verif.Props.Extend

/-!
# C65: rounds of different types behind one interface
-/

namespace Manul

variable {sp : SP} {U : Types} {R : Rounds sp U}

/-! ## Boxes -/

/-- **C65.**  `Payload::downcast` and `Artifact::downcast` return the boxed value exactly if the box is of the type asked
for; otherwise they fail with the downcast error. -/
theorem C65_downcast (t : U.Ty) (b : U.Any) :
    (∀ v, U.downcast t b = .ok v ↔ b = ⟨t, v⟩) ∧ (∀ e, U.downcast t b = .error e ↔ b.1 ≠ t ∧ e = .downcast) :=
  ⟨fun _ => Types.downcast_ok, fun _ => Types.downcast_error⟩

/-- **C65.**  Downcasting a boxed round returns the round exactly if it is of the type asked for; otherwise the boxed
round is kept. -/
theorem C65_downcast_round (t : R.Tag) (r : R.Boxed) :
    (∀ st, R.downcastRound t r = some st ↔ r = ⟨t, st⟩) ∧ (R.downcastRound t r = none ↔ r.1 ≠ t) :=
  ⟨fun _ => Rounds.downcastRound_some, Rounds.downcastRound_none⟩

/-- **C65.**  `NoMessage::new_if_equals` returns the placeholder exactly if the type is `NoMessage`; a message part is
made empty exactly in this case, and read as the placeholder exactly if it is also empty. -/
theorem C65_no_message (t : U.Ty) :
    (∀ v, U.noMessageIfEquals t = some v ↔ t = U.noMessage ∧ HEq v U.nothing) ∧
      (U.noMessageIfEquals t = none ↔ t ≠ U.noMessage) ∧
      (∀ k v p, U.newPart k t v = .ok p → (p.payload = none ↔ t = U.noMessage)) := by
  refine ⟨fun _ => Types.noMessage_some, Types.noMessage_none, fun k v p h => ?_⟩
  unfold Types.newPart at h
  by_cases h1 : U.isNoMessage t = true
  · rw [if_pos h1] at h
    cases h
    exact ⟨fun _ => Types.isNoMessage_iff.1 h1, fun _ => rfl⟩
  · rw [if_neg h1] at h
    cases h2 : U.ser t v with
    | error e => rw [h2] at h; cases h
    | ok b =>
      rw [h2] at h
      cases h
      exact iff_of_false (by simp) (fun h => h1 (Types.isNoMessage_iff.2 h))

/-- **C65.**  A part made of a value is read as this value, if deserializing inverts serializing at this type. -/
theorem C65_part_round_trip (k : PartKind) (t : U.Ty) (v : U.El t) (p : Part k)
    (hrt : ∀ b, U.ser t v = .ok b → U.de t b = some v) (hn : ∀ w : U.El U.noMessage, w = U.nothing)
    (h : U.newPart k t v = .ok p) : U.readPart t p = some v := by
  unfold Types.newPart at h
  unfold Types.readPart
  by_cases h1 : U.isNoMessage t = true
  · rw [if_pos h1] at h
    cases h
    have h2 := Types.isNoMessage_iff.1 h1
    subst h2
    rw [Types.noMessage_some.2 ⟨rfl, heq_of_eq (hn v)⟩]
    rfl
  · rw [if_neg h1] at h
    rw [Types.noMessage_none.2 (fun h => h1 (Types.isNoMessage_iff.2 h))]
    cases h2 : U.ser t v with
    | error e => rw [h2] at h; cases h
    | ok b =>
      rw [h2] at h
      cases h
      exact hrt b h2

/-! ## Runs -/

/-- **C65.**  In every run of a session, whatever arrives: when a round is finalized, the downcasts of
`RoundWrapper::finalize` succeed, and `finalize` of this round, of its own type, is called for payloads that its own
`receive_message` has returned for the parties expected, and artifacts that its own `make_direct_message` has returned
for the destinations. -/
theorem C65_finalize {rng : sp.Rng} {sid : Bytes} {signer : sp.Signer} {ep : EntryPoint R.wrap} {s₀ s : Session R.wrap}
    {a : Accum R.wrap} (h0 : Session.new rng sid signer ep = .ok s₀) (h : Reach s₀ (.running s a))
    (hy : a.canFinalize = .yes) {t : R.Tag} {st : R.St t} (hr : (finalizing s a).1 = ⟨t, st⟩) :
    ∃ ps as, R.TypedArgs t st (R.makeDirect t st) ps as ∧
      ∀ rng, s.round.finalize rng a.payloads a.artifacts = R.finalize t st rng ps as := by
  obtain ⟨ps, as, h1, h2⟩ := C05_finalize_keys h0 h hy
  rw [hr] at h1 h2
  obtain ⟨ps', as', h3, h4⟩ := Rounds.typedArgs (R := R) (t := t) (st := st) (make := R.makeDirect t st)
    h2.payloadKeys h2.artifactKeys h2.payload h2.artifact
  exact ⟨ps', as', h3, fun rng => (h1 rng).trans (h4 _)⟩

/-- **C65.**  The same for the first part of a chained protocol: the chained round passes the boxes on to a round of the
first protocol, which are boxes of this round. -/
theorem C65_chain_first {P2 : Proto sp} {J : ChainJoin R.wrap P2} {rng : sp.Rng} {sid : Bytes} {signer : sp.Signer}
    {ep : EntryPoint (chain R.wrap P2 J)} {s₀ s : Session (chain R.wrap P2 J)} {a : Accum (chain R.wrap P2 J)}
    (h0 : Session.new rng sid signer ep = .ok s₀) (h : Reach s₀ (.running s a)) (hy : a.canFinalize = .yes)
    {t : R.Tag} {st : R.St t} {id : sp.Id} {sr : Bytes} {d : J.Data} (hr : (finalizing s a).1 = .one id ⟨t, st⟩ sr d) :
    ∃ ps as, R.TypedArgs t st (R.makeDirect t st) ps as ∧
      ∀ rng, s.round.finalize rng a.payloads a.artifacts =
        match R.finalize t st (sp.fork rng 0) ps as with
        | .error e => .error e
        | .ok (.anotherRound r) => .ok (.anotherRound (.one id r sr d))
        | .ok (.result res) => (J.makeRound2 d res (sp.fork rng 1) sr id).map (fun r => .anotherRound (.two r)) := by
  obtain ⟨ps, as, h1, h2⟩ := C05_finalize_keys h0 h hy
  rw [hr] at h1 h2
  obtain ⟨ps1, as1, rfl, rfl, h5⟩ := one_args.1 h2
  obtain ⟨ps', as', h3, h4⟩ := Rounds.typedArgs (R := R) (t := t) (st := st) (make := R.makeDirect t st)
    h5.payloadKeys h5.artifactKeys h5.payload h5.artifact
  refine ⟨ps', as', h3, fun rng => (h1 rng).trans ?_⟩
  simp only [chain, castLeft_inl]
  rw [show R.wrap.finalize ⟨t, st⟩ (sp.fork rng 0) ps1 as1 = R.finalize t st (sp.fork rng 0) ps' as' from h4 _]
  cases R.finalize t st (sp.fork rng 0) ps' as' with
  | error e => rfl
  | ok o =>
    cases o with
    | anotherRound r => rfl
    | result res =>
      simp only
      cases J.makeRound2 d res (sp.fork rng 1) sr id <;> rfl

/-- **C65.**  The same for the second part of a chained protocol. -/
theorem C65_chain_second {P1 : Proto sp} {J : ChainJoin P1 R.wrap} {rng : sp.Rng} {sid : Bytes} {signer : sp.Signer}
    {ep : EntryPoint (chain P1 R.wrap J)} {s₀ s : Session (chain P1 R.wrap J)} {a : Accum (chain P1 R.wrap J)}
    (h0 : Session.new rng sid signer ep = .ok s₀) (h : Reach s₀ (.running s a)) (hy : a.canFinalize = .yes)
    {t : R.Tag} {st : R.St t} (hr : (finalizing s a).1 = .two ⟨t, st⟩) :
    ∃ ps as, R.TypedArgs t st (R.makeDirect t st) ps as ∧
      ∀ rng, s.round.finalize rng a.payloads a.artifacts =
        match R.finalize t st rng ps as with
        | .error e => .error e
        | .ok (.anotherRound r) => .ok (.anotherRound (.two r))
        | .ok (.result res) => .ok (.result res) := by
  obtain ⟨ps, as, h1, h2⟩ := C05_finalize_keys h0 h hy
  rw [hr] at h1 h2
  obtain ⟨ps1, as1, rfl, rfl, h5⟩ := two_args.1 h2
  obtain ⟨ps', as', h3, h4⟩ := Rounds.typedArgs (R := R) (t := t) (st := st) (make := R.makeDirect t st)
    h5.payloadKeys h5.artifactKeys h5.payload h5.artifact
  refine ⟨ps', as', h3, fun rng => (h1 rng).trans ?_⟩
  simp only [chain, castRight_inr]
  rw [show R.wrap.finalize ⟨t, st⟩ rng ps1 as1 = R.finalize t st rng ps' as' from h4 _]
  cases R.finalize t st rng ps' as' with
  | error e => rfl
  | ok o => cases o <;> rfl

/-! ## Extensions -/

/-- **C65.**  The map built by calls of `ExtendableEntryPoint::extend` holds under every round type an extension for this
type: the last one registered for it. -/
theorem C65_register (regs : List (Σ t, R.TypedExt t)) :
    regs.foldl (fun m e => R.register m e.1 e.2) (fun _ => none) = R.extMap (R.lastFor regs) := by
  let _ := R.decTag
  have key : ∀ (regs : List (Σ t, R.TypedExt t)) (f : R.TypedExts),
      regs.foldl (fun m e => R.register m e.1 e.2) (R.extMap f) =
        R.extMap (fun t => match R.lastFor regs t with | some e => some e | none => f t) := by
    intro regs
    induction regs with
    | nil => intro f; rfl
    | cons e l ih =>
      intro f
      rw [List.foldl_cons, Rounds.register_extMap, ih]
      congr 1
      funext t
      simp only [Rounds.lastFor]
      cases R.lastFor l t with
      | some e' => rfl
      | none =>
        simp only
        by_cases h : e.1 = t
        · simp only [dif_pos h]
        · simp only [dif_neg h]
  have h0 : (fun _ => none : R.ExtMap) = R.extMap (fun _ => none) := rfl
  rw [h0, key]
  congr 1
  funext t
  cases R.lastFor regs t <;> rfl

/-- **C65.**  With a map of extensions that each stand under the type they are for, `wrap_round` does not panic: a round
whose type has an extension is extended by it, any other round is passed through. -/
theorem C65_wrap_round (f : R.TypedExts) (t : R.Tag) (st : R.St t) :
    R.wrapRound ⟨t, st⟩ (R.extMap f) =
      .ok (match f t with
        | some e => .extended t st e (R.extMap f)
        | none => .passthrough ⟨t, st⟩ (R.extMap f)) := by
  rw [Rounds.wrapRound_extMap]
  unfold Rounds.extOf
  cases f t <;> rfl

/-- **C65.**  With extensions, a session behaves exactly as one of the protocol in which the round types with an extension
have its methods: the same messages, the same observations after any events, the same report or error. -/
theorem C65_extended (f : R.TypedExts) (ep : EntryPoint R.wrap) (sid : Bytes) (signer : sp.Signer) (rng rng' : sp.Rng)
    (evs : List (Event sp)) :
    behaviour (R.extendedEntry ep (R.extMap f)) sid signer rng rng' evs =
      behaviour (R.overriddenEntry f ep) sid signer rng rng' evs :=
  Reshape.behaviour (Rounds.reshape_ok f) (R.overriddenEntry f ep) (R.extendedEntry ep (R.extMap f)) (by
    intro rng sid x
    show (match ep.makeRound rng sid x with
      | .error e => .error e
      | .ok r => R.wrapRound r (R.extMap f)) = (ep.makeRound rng sid x).map (Rounds.extOf f)
    cases ep.makeRound rng sid x with
    | error e => rfl
    | ok r => exact Rounds.wrapRound_extMap f r) sid signer rng rng' evs

/-- **C65.**  Extended rounds are finalized with values of their own types as well, for any map of extensions: the
payloads are those of the round, the artifacts those returned by the extension. -/
theorem C65_extended_finalize {rng : sp.Rng} {sid : Bytes} {signer : sp.Signer} {ep : EntryPoint R.extended}
    {s₀ s : Session R.extended} {a : Accum R.extended} (h0 : Session.new rng sid signer ep = .ok s₀)
    (h : Reach s₀ (.running s a)) (hy : a.canFinalize = .yes) :
    (∀ t st e exts, (finalizing s a).1 = .extended t st e exts →
      ∃ ps as, R.TypedArgs t st (e.makeDirect st) ps as ∧
        ∀ rng, s.round.finalize rng a.payloads a.artifacts =
          match e.finalize st rng ps as with
          | .error err => .error err
          | .ok o => R.wrapOutcome exts o) ∧
    (∀ t st exts, (finalizing s a).1 = .passthrough ⟨t, st⟩ exts →
      ∃ ps as, R.TypedArgs t st (R.makeDirect t st) ps as ∧
        ∀ rng, s.round.finalize rng a.payloads a.artifacts =
          match R.finalize t st rng ps as with
          | .error err => .error err
          | .ok o => R.wrapOutcome exts o) := by
  obtain ⟨ps, as, h1, h2⟩ := C05_finalize_keys h0 h hy
  constructor
  · intro t st e exts hr
    rw [hr] at h1 h2
    obtain ⟨ps', as', h3, h4⟩ := Rounds.typedArgs (R := R) (t := t) (st := st) (make := e.makeDirect st)
      h2.payloadKeys h2.artifactKeys h2.payload h2.artifact
    refine ⟨ps', as', h3, fun rng => (h1 rng).trans ?_⟩
    simp only [Rounds.extended]
    rw [show U.wrapFinalize (R.payload t) (R.artifact t) (e.finalize st rng) ps as = e.finalize st rng ps' as' from h4 _]
    cases e.finalize st rng ps' as' <;> rfl
  · intro t st exts hr
    rw [hr] at h1 h2
    obtain ⟨ps', as', h3, h4⟩ := Rounds.typedArgs (R := R) (t := t) (st := st) (make := R.makeDirect t st)
      h2.payloadKeys h2.artifactKeys h2.payload h2.artifact
    refine ⟨ps', as', h3, fun rng => (h1 rng).trans ?_⟩
    simp only [Rounds.extended]
    rw [show R.wrap.finalize ⟨t, st⟩ rng ps as = R.finalize t st rng ps' as' from h4 _]
    cases R.finalize t st rng ps' as' <;> rfl

/-! ## Merged types -/

/-- **C65.**  Merging the types of the rounds, as `TypedProto` does, changes nothing: the session sees the same
protocol. -/
theorem C65_typed : R.typed.wrap = R.wrap := Rounds.typed_wrap

/-! ## Example: two rounds without a type in common -/

/-- Types: `NoMessage`, numbers below 256 and byte strings. -/
inductive PairTy where
  | nothing | number | bytes
deriving DecidableEq

def pairTypes : Types where
  Ty := PairTy
  decTy := inferInstance
  El
    | .nothing => Unit
    | .number => U8
    | .bytes => Bytes
  noMessage := .nothing
  nothing := ()
  ser t v :=
    match t with
    | .nothing => .ok []
    | .number => .ok [v]
    | .bytes => .ok v
  de t b :=
    match t with
    | .nothing => some ()
    | .number =>
      match b with
      | [x] => some x
      | _ => none
    | .bytes => some b

/-- Two rounds: in the first, numbers are sent in direct messages, the payloads are byte strings and the artifacts
numbers; in the second, byte strings are broadcast, the payloads are numbers, and there are no artifacts. -/
def pairRounds : Rounds toy pairTypes where
  Tag := Bool
  decTag := inferInstance
  St
    | false => U8 × BSet U8
    | true => U8 × BSet U8 × Nat
  msg
    | false, .direct => .number
    | true, .normal => .bytes
    | _, _ => .nothing
  payload
    | false => .bytes
    | true => .number
  artifact
    | false => .number
    | true => .nothing
  error _ := .nothing
  Result := Nat
  Shared := Unit
  required _ _ _ := ⟨⟨false, false, true⟩, none, none⟩
  verifyErr _ _ _ _ _ _ _ _ _ := .error .invalid
  transition
    | false, _ =>
      { id := RoundId.new 1, parents := BMap.empty, siblings := BMap.empty, children := BSet.ofList [RoundId.new 2],
        mayProduceResult := false }
    | true, _ => TransitionInfo.newLinearTerminating 2
  comm
    | false, s => CommInfo.regular (Id := U8) s.2
    | true, s => CommInfo.regular (Id := U8) s.2.1
  makeDirect
    | false, _, _, d => .ok ((d : U8), (7 : U8))
    | true, _, _, _ => .ok ((), ())
  makeEcho
    | false, _, _ => .ok ()
    | true, _, _ => .ok ()
  makeNormal
    | false, _, _ => .ok ()
    | true, s, _ => .ok ([s.1, s.1] : Bytes)
  receive
    | false, _, _, d, _, _ => .ok ([d, d] : Bytes)
    | true, _, _, _, _, n => .ok (((n : Bytes).head?.getD 0) : U8)
  finalize
    | false, s, _, ps, as =>
      .ok (.anotherRound ⟨true, (s.1, s.2,
        (ps.toList.map (fun e => ((e.2 : Bytes).map (·.val)).sum)).sum + (as.toList.map (fun e => (e.2 : U8).val)).sum)⟩)
    | true, s, _, ps, _ => .ok (.result ((s.2.2 : Nat) + (ps.toList.map (fun e => (e.2 : U8).val)).sum))
  roundTag rid := if rid = RoundId.new 1 then some false else if rid = RoundId.new 2 then some true else none

def pairEntry : EntryPoint pairRounds.wrap where
  entryRoundId := RoundId.new 1
  makeRound _ _ id := .ok ⟨false, ((id : U8), BSet.ofList (([1, 2, 3] : List U8).filter (fun x : U8 => differs x id)))⟩

/-- A run of both rounds. -/
def pairScript : List Act :=
  [.msg ⟨2, 2, [9], RoundId.new 1, 1, some [5], none, none⟩, .msg ⟨3, 3, [9], RoundId.new 1, 1, some [6], none, none⟩,
   .tick,
   .msg ⟨2, 2, [9], RoundId.new 2, 1, none, none, some [10, 1]⟩,
   .msg ⟨3, 3, [9], RoundId.new 2, 1, none, none, some [20, 1]⟩]

def pairRun (l : List Act) : Except LErr (Session pairRounds.wrap × RunState pairRounds.wrap) :=
  match Session.new (sp := toy) (0 : Nat) [9] (1 : U8) pairEntry with
  | .error e => .error e
  | .ok s =>
    match runEvents (start s (0 : Nat)).1 (scriptEvents l) with
    | .error e => .error e
    | .ok st => .ok (s, st)

/-- A session about to finalize a round of the second type: the hypotheses of `C65_finalize` are met. -/
example : ∃ (s₀ s : Session pairRounds.wrap) (a : Accum pairRounds.wrap) (st : pairRounds.St true),
    Session.new (sp := toy) (0 : Nat) [9] (1 : U8) pairEntry = .ok s₀ ∧ Reach s₀ (.running s a) ∧ a.canFinalize = .yes ∧
      (finalizing s a).1 = ⟨true, st⟩ := by
  have h : onOk (pairRun pairScript)
      (fun r => r.2.isRunning (fun s a => (a.canFinalize == .yes) && ((finalizing s a).1.1 : Bool))) = true := by
    decide +kernel
  obtain ⟨⟨s₀, st⟩, h0, hk⟩ := onOk_iff.1 h
  obtain ⟨s, a, h1, h2⟩ := isRunning_iff.1 hk
  unfold pairRun at h0
  cases hs : Session.new (sp := toy) (0 : Nat) [9] (1 : U8) pairEntry with
  | error e => rw [hs] at h0; cases h0
  | ok s' =>
    rw [hs] at h0
    simp only at h0
    cases hr : runEvents (start s' (0 : Nat)).1 (scriptEvents pairScript) with
    | error e => rw [hr] at h0; cases h0
    | ok st' =>
      rw [hr] at h0
      cases h0
      subst h1
      obtain ⟨h2, h3⟩ := Bool.and_eq_true_iff.1 h2
      rw [beq_iff_eq] at h2
      revert h3
      cases hf : (finalizing s a).1 with
      | mk t st =>
        intro h3
        cases h3
        exact ⟨_, s, a, st, rfl, runEvents_reach (.start _) hr, h2, hf⟩

/-- The result: `5 + 5 + 6 + 6` of the payloads and `7 + 7` of the artifacts of the first round, `10 + 20` of the
second. -/
example : finalResult (R := Nat) (behaviour (sp := toy) pairEntry [9] (1 : U8) (0 : Nat) (0 : Nat)
    (scriptEvents (pairScript ++ [.tick]))) = some 66 := by decide +kernel

def succU8 (x : U8) : U8 := x + 1

/-- An extension of the second round: it broadcasts other byte strings, and adds one to the payloads before leaving the rest
to the round. -/
def pairExt : pairRounds.TypedExt true where
  makeDirect := pairRounds.makeDirect true
  makeEcho := pairRounds.makeEcho true
  makeNormal _ _ := .ok ([77] : Bytes)
  finalize s rng ps as := pairRounds.finalize true s rng (ps.mapVal (fun _ v => succU8 v)) as

/-- Registered by `extend`, it changes the result from 66 to 68. -/
example : finalResult (R := Nat) (behaviour (sp := toy)
    (pairRounds.extendedEntry pairEntry (pairRounds.register (fun _ => none) true pairExt)) [9] (1 : U8) (0 : Nat) (0 : Nat)
    (scriptEvents (pairScript ++ [.tick]))) = some 68 := by decide +kernel

/-- An extension standing under the type of another round makes `wrap_round` panic. -/
example : (pairRounds.wrapRound ⟨false, ((1 : U8), BSet.ofList [2, 3])⟩ (fun _ => some ⟨true, pairExt⟩) matches
    .error .panicExtension) = true := by decide +kernel

/-- The numbers of the example meet the hypotheses of `C65_part_round_trip`. -/
example : (∀ (v : U8) (b : Bytes), pairTypes.ser .number v = .ok b → pairTypes.de .number b = some v) ∧
    (∀ w : pairTypes.El pairTypes.noMessage, w = pairTypes.nothing) ∧
    ∃ p, pairTypes.newPart .direct .number (5 : U8) = .ok p ∧ pairTypes.readPart .number p = some (5 : U8) := by
  refine ⟨?_, fun _ => rfl, ⟨some [5]⟩, rfl, rfl⟩
  intro v b h
  cases h
  rfl

end Manul
