import Verif.Lemmas.Bench
import Verif.Lemmas.DeadEnd
import Verif.Props.RunSyncExamples
import Verif.Props.RunAsync
import Verif.Props.PartialEcho

/-!
# The default message methods of `Round`, and the protocols of the benchmarks (C64)
-/

namespace Manul

/-! ### Default methods -/

section defaults

variable {sp : SP} {T : TypedProto sp} {unit : T.Val} {noArtifact : T.Tag → Option T.Artifact}
  {implemented : T.Tag → PartKind → Bool} {s : T.St}

/-- **C64.**  A broadcast method that is not implemented succeeds exactly if the message type is `NoMessage`; there is no message
then. -/
theorem C64_default_broadcasts (rng : sp.Rng) :
    (implemented (T.tag s) .echo = false → (T.withDefaults unit noArtifact implemented).wrap.makeEcho s rng =
      if (T.de (T.tag s) .echo).isNone then .ok Part.none else .error .notImplemented) ∧
    (implemented (T.tag s) .normal = false → (T.withDefaults unit noArtifact implemented).wrap.makeNormal s rng =
      if (T.de (T.tag s) .normal).isNone then .ok Part.none else .error .notImplemented) := by
  constructor
  · intro h
    cases hd : T.de (T.tag s) .echo <;>
      simp [TypedProto.wrap, TypedProto.withDefaults, h, TypedProto.defaultBroadcast, TypedProto.noMessage, hd, TypedProto.newPart]
  · intro h
    cases hd : T.de (T.tag s) .normal <;>
      simp [TypedProto.wrap, TypedProto.withDefaults, h, TypedProto.defaultBroadcast, TypedProto.noMessage, hd, TypedProto.newPart]

/-- **C64.**  `make_direct_message`, if not implemented, succeeds exactly if the message type is `NoMessage` and the artifact type is
`NoArtifact`. -/
theorem C64_default_direct (rng : sp.Rng) (d : sp.Id) (h : implemented (T.tag s) .direct = false) :
    (∀ x, (T.withDefaults unit noArtifact implemented).wrap.makeDirect s rng d = .ok x ↔
      (T.de (T.tag s) .direct).isNone = true ∧ ∃ a, noArtifact (T.tag s) = some a ∧ x = (Part.none, a)) ∧
    ∀ e, (T.withDefaults unit noArtifact implemented).wrap.makeDirect s rng d = .error e → e = .notImplemented := by
  cases hd : T.de (T.tag s) .direct with
  | some f =>
    have : (T.withDefaults unit noArtifact implemented).wrap.makeDirect s rng d = .error .notImplemented := by
      simp [TypedProto.wrap, TypedProto.withDefaults, h, TypedProto.defaultDirect, TypedProto.noMessage, hd]
    rw [this]
    exact ⟨by simp, by intro e he; cases he; rfl⟩
  | none =>
    cases ha : noArtifact (T.tag s) with
    | none =>
      have : (T.withDefaults unit noArtifact implemented).wrap.makeDirect s rng d = .error .notImplemented := by
        simp [TypedProto.wrap, TypedProto.withDefaults, h, TypedProto.defaultDirect, TypedProto.noMessage, hd, ha]
      rw [this]
      exact ⟨by simp, by intro e he; cases he; rfl⟩
    | some a =>
      have : (T.withDefaults unit noArtifact implemented).wrap.makeDirect s rng d = .ok (Part.none, a) := by
        simp [TypedProto.wrap, TypedProto.withDefaults, h, TypedProto.defaultDirect, TypedProto.noMessage, hd, ha, TypedProto.newPart]
      rw [this]
      refine ⟨fun x => ⟨?_, ?_⟩, by intro e he; cases he⟩
      · intro hx
        cases hx
        exact ⟨rfl, a, rfl, rfl⟩
      · rintro ⟨-, b, hb, rfl⟩
        cases hb
        rfl

/-- **C64.**  Implemented methods are called. -/
theorem C64_implemented (rng : sp.Rng) (d : sp.Id) :
    (implemented (T.tag s) .echo = true →
      (T.withDefaults unit noArtifact implemented).wrap.makeEcho s rng = T.wrap.makeEcho s rng) ∧
    (implemented (T.tag s) .normal = true →
      (T.withDefaults unit noArtifact implemented).wrap.makeNormal s rng = T.wrap.makeNormal s rng) ∧
    (implemented (T.tag s) .direct = true →
      (T.withDefaults unit noArtifact implemented).wrap.makeDirect s rng d = T.wrap.makeDirect s rng d) := by
  refine ⟨fun h => ?_, fun h => ?_, fun h => ?_⟩
  · cases hm : T.makeEcho s rng <;> cases hd : T.de (T.tag s) .echo <;>
      simp [TypedProto.wrap, TypedProto.withDefaults, h, hm, TypedProto.newPart, hd]
  · cases hm : T.makeNormal s rng <;> cases hd : T.de (T.tag s) .normal <;>
      simp [TypedProto.wrap, TypedProto.withDefaults, h, hm, TypedProto.newPart, hd]
  · cases hm : T.makeDirect s rng d <;> cases hd : T.de (T.tag s) .direct <;>
      simp [TypedProto.wrap, TypedProto.withDefaults, h, hm, TypedProto.newPart, hd]

end defaults

section sessions

variable {sp : SP} {P : Proto sp}

/-- A session is not created if a broadcast cannot be made. -/
theorem newForNextRound_echoErr {rng : sp.Rng} {sid : Bytes} {signer : sp.Signer} {r : P.Rd} {t : Transcript sp} {e : LErr}
    (hd : (P.comm r).destinations.isEmpty = false) (he : ∀ rng, P.makeEcho r rng = .error e) :
    Session.newForNextRound rng sid signer (.main r) t = .error e := by
  simp [Session.newForNextRound, SRound.transition, SRound.comm, SRound.makeEcho, hd, he]

theorem newForNextRound_normalErr {rng : sp.Rng} {sid : Bytes} {signer : sp.Signer} {r : P.Rd} {t : Transcript sp} {e : LErr}
    (hd : (P.comm r).destinations.isEmpty = false) (he : ∀ rng, P.makeNormal r rng = .error e) :
    ∃ e, Session.newForNextRound rng sid signer (.main r) t = .error e := by
  simp only [Session.newForNextRound, SRound.transition, SRound.comm, SRound.makeEcho, SRound.makeNormal, hd, he]
  simp only [Bool.false_eq_true, if_false]
  split
  · exact ⟨_, rfl⟩
  · split
    · exact ⟨_, rfl⟩
    · exact ⟨_, rfl⟩

end sessions

section defaults

variable {sp : SP} {T : TypedProto sp} {unit : T.Val} {noArtifact : T.Tag → Option T.Artifact}
  {implemented : T.Tag → PartKind → Bool}

/-- **C64.**  A round with somebody to send messages to and a broadcast whose type is not `NoMessage`, but whose method is not
implemented, ends the session with a local error: whatever the session parameters, the keys and the random numbers. -/
theorem C64_missing_broadcast {s : T.St} (hd : (T.comm s).destinations.isEmpty = false)
    (hm : implemented (T.tag s) .echo = false ∧ (T.de (T.tag s) .echo).isSome = true ∨
      implemented (T.tag s) .normal = false ∧ (T.de (T.tag s) .normal).isSome = true)
    (rng : sp.Rng) (sid : Bytes) (signer : sp.Signer) (t : Transcript sp) :
    ∃ e, Session.newForNextRound (P := (T.withDefaults unit noArtifact implemented).wrap) rng sid signer (.main s) t = .error e := by
  rcases hm with ⟨h1, h2⟩ | ⟨h1, h2⟩
  · refine ⟨_, newForNextRound_echoErr (P := (T.withDefaults unit noArtifact implemented).wrap) (e := .notImplemented) hd ?_⟩
    intro rng
    rw [(C64_default_broadcasts rng).1 h1, if_neg (by rw [Option.isNone_iff_eq_none]; intro h; rw [h] at h2; cases h2)]
  · refine newForNextRound_normalErr (P := (T.withDefaults unit noArtifact implemented).wrap) (e := .notImplemented) hd ?_
    intro rng
    rw [(C64_default_broadcasts rng).2 h1, if_neg (by rw [Option.isNone_iff_eq_none]; intro h; rw [h] at h2; cases h2)]

/-- **C64.**  And a session in a round without `make_direct_message` makes no messages, unless the type of direct messages is
`NoMessage` and that of artifacts `NoArtifact`. -/
theorem C64_missing_direct {s : Session (T.withDefaults unit noArtifact implemented).wrap} {r : T.St} (hs : s.round = .main r)
    (h : implemented (T.tag r) .direct = false)
    (hm : (T.de (T.tag r) .direct).isSome = true ∨ noArtifact (T.tag r) = none) (rng : sp.Rng) (d : sp.Id) :
    s.makeMessage rng d = .error .notImplemented := by
  have key : (T.withDefaults unit noArtifact implemented).wrap.makeDirect r (sp.fork rng 0) d = .error .notImplemented := by
    obtain ⟨h1, h2⟩ := C64_default_direct (unit := unit) (noArtifact := noArtifact) (sp.fork rng 0) d h
    cases hx : (T.withDefaults unit noArtifact implemented).wrap.makeDirect r (sp.fork rng 0) d with
    | error e => rw [h2 e hx]
    | ok x =>
      obtain ⟨h3, a, h4, -⟩ := (h1 x).1 hx
      rcases hm with h5 | h5
      · rw [Option.isNone_iff_eq_none] at h3
        rw [h3] at h5
        cases h5
      · rw [h5] at h4
        cases h4
  unfold Session.makeMessage
  rw [hs]
  simp only [SRound.makeDirect]
  rw [key]

end defaults

/-- The protocol of the test `partial_echo` implements `make_echo_broadcast` only, and all of its other messages are `NoMessage`:
its model is that with the default methods. -/
example (sp : SP) (fmt : SenderFormat sp) (v : sp.Id) (s : PartialInputs sp.Id) (rng : sp.Rng) (d : sp.Id) :
    ((partialEcho sp fmt).withDefaults v (fun _ => some ()) (fun _ k => k = .echo)).wrap.makeEcho s rng =
      (partialEcho sp fmt).wrap.makeEcho s rng ∧
    ((partialEcho sp fmt).withDefaults v (fun _ => some ()) (fun _ k => k = .echo)).wrap.makeNormal s rng =
      (partialEcho sp fmt).wrap.makeNormal s rng ∧
    ((partialEcho sp fmt).withDefaults v (fun _ => some ()) (fun _ k => k = .echo)).wrap.makeDirect s rng d =
      (partialEcho sp fmt).wrap.makeDirect s rng d :=
  ⟨(C64_implemented rng d).1 rfl, rfl, rfl⟩

/-! ### The benchmarks -/

section bench

variable {sp : SP} {W : Type} [DecidableEq W] {b : BenchWork W} {checks plainEcho : Bool} {roundsNum : U8} {echo : Bool}
  {ids : BSet sp.Id} {signer : sp.Id → sp.Signer} {sid : Bytes}

theorem exists_party (h2 : 2 ≤ partyCount ids) : ∃ i, ids.contains i = true := by
  unfold partyCount at h2
  cases he : BSet.elems ids with
  | nil => rw [he] at h2; simp at h2
  | cons i l => exact ⟨i, BSet.mem_elems.1 (by rw [he]; simp)⟩

theorem bench_plain_stuck {r : BenchSt sp.Id} (hr : r.withEcho = false) (hd : r.inputs.otherIds.isEmpty = false) (rng : sp.Rng)
    (sid : Bytes) (signer : sp.Signer) (t : Transcript sp) :
    Session.newForNextRound (P := (bench sp b checks true).wrap) rng sid signer (.main r) t = .error .notImplemented := by
  refine newForNextRound_echoErr (P := (bench sp b checks true).wrap) hd ?_
  intro rng
  simp [TypedProto.wrap, bench, TypedProto.withDefaults, benchRounds, hr, TypedProto.defaultBroadcast, TypedProto.noMessage]

theorem bench_new_stuck {i : sp.Id} (hd : BMap.isEmpty (ids.erase i) = false) (rng : sp.Rng) :
    Session.new rng sid (signer i) ((benchGroup sp b checks true roundsNum false ids signer sid).ep i) = .error .notImplemented := by
  unfold Session.new
  exact bench_plain_stuck rfl hd _ _ _ _

/-- **C64.**  The benchmark "no echo" of `empty_rounds.rs` fails: with at least two nodes `run_sync` returns a local error, as
`EmptyRound` has an echo broadcast that it does not make. -/
theorem C64_no_echo_violation (h2 : 2 ≤ partyCount ids) {l : List sp.Id}
    (hl : (benchGroup sp b checks true roundsNum false ids signer sid).Enum l)
    {o : Except SyncErr (BMap sp.Id (Report (bench sp b checks true).wrap))}
    (h : RunSync sid ((benchGroup sp b checks true roundsNum false ids signer sid).nodes l) o) :
    o = .error (.local .notImplemented) := by
  cases l with
  | nil =>
    exfalso
    obtain ⟨i, hi⟩ := exists_party h2
    exact absurd ((hl.2 i).2 hi) (by simp)
  | cons i l =>
    have hi : ids.contains i = true := (hl.2 i).1 (by simp)
    have hnew := bench_new_stuck (b := b) (checks := checks) (roundsNum := roundsNum) (signer := signer) (sid := sid)
      (others_nonempty h2 hi)
    have key : ∀ {o}, Setup sid ⟨Queue.new sp true, BMap.empty⟩
        ((benchGroup sp b checks true roundsNum false ids signer sid).nodes (i :: l)) o → o = .error .notImplemented := by
      intro o h
      have hadd : ∀ {x o}, AddNode sid (signer i) ((benchGroup sp b checks true roundsNum false ids signer sid).ep i) x o →
          o = .error .notImplemented := by
        intro x o h
        cases h with
        | @newErr rng e h1 => rw [hnew rng] at h1; cases h1; rfl
        | @sendErr rng _ _ _ h1 => rw [hnew rng] at h1; cases h1
        | @propagateErr rng _ _ _ _ _ h1 => rw [hnew rng] at h1; cases h1
        | @ok rng _ _ _ _ _ _ h1 => rw [hnew rng] at h1; cases h1
      cases h with
      | cons h1 _ => cases hadd h1
      | err h1 => exact hadd h1
    cases h with
    | setupErr h1 => cases key h1; rfl
    | loopErr h1 _ => cases key h1
    | reportErr h1 _ _ => cases key h1
    | ok h1 _ _ => cases key h1

/-- **C64.**  The benchmarks of `async_session.rs` measure nothing but the creation of sessions: with at least two nodes no session is
ever created, and `run_async` does not return reports. -/
theorem C64_async_violation (h2 : 2 ≤ partyCount ids) {k : Nat} {x : Async (bench sp b checks true).wrap}
    (h : AsyncTakes (benchGroup sp b checks true roundsNum false ids signer sid) k x) :
    (∀ i st, x.node i = some st → st = .done (.error .notImplemented)) ∧
    ∀ reports, ¬ x.Returns (benchGroup sp b checks true roundsNum false ids signer sid) reports := by
  have inv : (∀ i st, x.node i = some st → st = .done (.error .notImplemented)) ∧ ∀ i, x.outbox i = [] := by
    induction h with
    | init => exact ⟨fun i st h => by simp [Async.init] at h, fun _ => rfl⟩
    | @step k x x' h hs ih =>
      obtain ⟨ih1, ih2⟩ := ih
      cases hs with
      | @start i rng rng' hi hn =>
        have hnew := bench_new_stuck (b := b) (checks := checks) (roundsNum := roundsNum) (signer := signer) (sid := sid)
          (others_nonempty h2 hi) rng
        have hst : (benchGroup sp b checks true roundsNum false ids signer sid).startNode i rng rng' =
            (.done (.error .notImplemented), []) := by
          unfold Group.startNode
          rw [show Session.new rng (benchGroup sp b checks true roundsNum false ids signer sid).sid
            ((benchGroup sp b checks true roundsNum false ids signer sid).signer i)
            ((benchGroup sp b checks true roundsNum false ids signer sid).ep i) = .error .notImplemented from hnew]
        rw [hst]
        refine ⟨?_, ?_⟩
        · intro j st hj
          simp only [Async.put, Function.update_apply] at hj
          split at hj
          · cases hj; rfl
          · exact ih1 j st hj
        · intro j
          simp only [Async.put, Function.update_apply]
          split
          · rfl
          · exact ih2 j
      | @push i m ms ho => rw [ih2 i] at ho; cases ho
      | @pushErr i m ms ho => rw [ih2 i] at ho; cases ho
      | @tick i st st' rng out hn _ hs => cases ih1 i st hn; simp [step] at hs
      | @recv i st st' p ps out hn _ _ hs => cases ih1 i st hn; simp [step] at hs
      | @closed i st st' out hn _ _ _ hs => cases ih1 i st hn; simp [step] at hs
      | dispatch hd => cases hd <;> exact ⟨ih1, ih2⟩
  refine ⟨inv.1, ?_⟩
  intro reports hr
  obtain ⟨i, hi⟩ := exists_party h2
  obtain ⟨r, h3⟩ := BMap.contains_iff.1 ((hr.2.1 i).trans hi)
  have h4 := inv.1 i _ (hr.2.2 i r h3)
  cases h4

/-- A round after which `EmptyRound` follows. -/
theorem bench_deadEnd {r : BenchSt sp.Id} (hn : r.counter ≠ r.inputs.roundsNum) (hd : r.inputs.otherIds.isEmpty = false) :
    DeadEnd (P := (bench sp b checks true).wrap) r := by
  intro rng ps as o h
  replace h := bench_finalize.symm.trans h
  rw [if_neg hn] at h
  split at h
  · cases h
  · rename_i c _
    cases h
    refine ⟨_, rfl, ?_⟩
    intro rng sid signer t s h
    cases (bench_plain_stuck (r := ⟨false, c, r.inputs⟩) rfl hd rng sid signer t).symm.trans h

/-- **C64.**  The benchmark "echo each round" of `empty_rounds.rs` fails unless there is one round only: after the first round (which
has an echo round) `EmptyRound` follows.  Nobody gets a result, whatever messages are delivered in whatever order; `run_sync` does
not return results. -/
theorem C64_echo_violation (hn : roundsNum ≠ 1) (h2 : 2 ≤ partyCount ids) :
    (∀ i rng (s₀ : Session (bench sp b checks true).wrap) st, ids.contains i = true →
      Session.new rng sid (signer i) ((benchGroup sp b checks true roundsNum true ids signer sid).ep i) = .ok s₀ → Reach s₀ st →
      ∀ rep v, st = .done (.ok rep) → rep.outcome ≠ .result v) ∧
    ∀ (l : List sp.Id) (o : Except SyncErr (BMap sp.Id (Report (bench sp b checks true).wrap))),
      (benchGroup sp b checks true roundsNum true ids signer sid).Enum l →
      RunSync sid ((benchGroup sp b checks true roundsNum true ids signer sid).nodes l) o →
      ¬ ∃ reports results, o = .ok reports ∧ executionResults reports = .ok results := by
  have key : ∀ i rng (s₀ : Session (bench sp b checks true).wrap) st, ids.contains i = true →
      Session.new rng sid (signer i) ((benchGroup sp b checks true roundsNum true ids signer sid).ep i) = .ok s₀ → Reach s₀ st →
      ∀ rep v, st = .done (.ok rep) → rep.outcome ≠ .result v := by
    intro i rng s₀ st hi hs hr rep v hst
    have hdead : DeadEnd (P := (bench sp b checks true).wrap) (⟨true, 1, ⟨roundsNum, true, ids.erase i⟩⟩ : BenchSt sp.Id) :=
      bench_deadEnd (fun h => hn h.symm) (others_nonempty h2 hi)
    have h0 : s₀.round.base = (⟨true, 1, ⟨roundsNum, true, ids.erase i⟩⟩ : BenchSt sp.Id) := by
      unfold Session.new at hs
      rw [newForNextRound_round hs]
      rfl
    have := hdead.reach h0 hr
    rw [hst] at this
    exact this v
  refine ⟨key, ?_⟩
  rintro l o hl h ⟨reports, results, rfl, hres⟩
  obtain ⟨hk, hrep⟩ := C44_reports _ _ _ h
  have hx := C53_execution_results reports
  rw [hres] at hx
  cases l with
  | nil =>
    obtain ⟨i, hi⟩ := exists_party h2
    exact absurd ((hl.2 i).2 hi) (by simp)
  | cons i l =>
    have hc : reports.contains (sp.verifyingKey (signer i)) = true :=
      (hk _).2 ⟨(signer i, (benchGroup sp b checks true roundsNum true ids signer sid).ep i), by simp [Group.nodes, benchGroup], rfl⟩
    obtain ⟨v, hv⟩ := BMap.contains_iff.1 ((hx.1 _).trans hc)
    obtain ⟨rep, h3, h4⟩ := (hx.2 _ _).1 hv
    obtain ⟨sg, ep, rng, s, h5, h6, h7, h8⟩ := hrep _ _ h3
    simp only [Group.nodes, List.mem_map, Prod.mk.injEq] at h5
    obtain ⟨j, hj, rfl, rfl⟩ := h5
    exact key j rng s _ ((hl.2 j).1 hj) h7 h8 rep v rfl h4

theorem bench_ok (hf : b.Lawful) (hp : ParamsWork sp ids signer) (hn : roundsNum ≠ 0) (hw : b.Works roundsNum)
    (he : plainEcho = false ∨ echo = true ∧ roundsNum = 1) (h2 : 2 ≤ partyCount ids) :
    (benchPlan sp b checks plainEcho roundsNum echo ids signer sid).scheme.Ok :=
  Plan.Ok.scheme ⟨hp.env, hp.sc, hp.srt, hp.ert, hp.keys, bench_cooperative hf
    (Nat.pos_of_ne_zero (fun h => hn (Fin.ext h))) hw (he.imp_right (fun h => ⟨h.1, by rw [h.2]; rfl⟩))
    (fun _ i hi => others_nonempty h2 hi)⟩

/-- **C64** (partial: the benchmarks run with `plainEcho = true`, five rounds, or without an echo broadcast in the first round).  If
`EmptyRound` had no echo broadcasts, or with a single round with an echo broadcast, `run_sync` gives a result to everybody,
whatever the order of delivery, and the number of rounds and parties. -/
theorem C64_results_partial (rng : sp.Rng) (hf : b.Lawful) (hp : ParamsWork sp ids signer) (hn : roundsNum ≠ 0)
    (hw : b.Works roundsNum) (he : plainEcho = false ∨ echo = true ∧ roundsNum = 1) (h2 : 2 ≤ partyCount ids) {l : List sp.Id}
    (hl : (benchGroup sp b checks plainEcho roundsNum echo ids signer sid).Enum l)
    {o : Except SyncErr (BMap sp.Id (Report (bench sp b checks plainEcho).wrap))}
    (h : RunSync sid ((benchGroup sp b checks plainEcho roundsNum echo ids signer sid).nodes l) o) :
    ∃ reports results, o = .ok reports ∧ executionResults reports = .ok results ∧ ∀ j, results.contains j = ids.contains j := by
  obtain ⟨i, hi⟩ := exists_party h2
  obtain ⟨reports, results, n, h1, h2, -, h3, -⟩ :=
    results_net (sc := (benchPlan sp b checks plainEcho roundsNum echo ids signer sid).scheme) (bench_ok hf hp hn hw he h2) rng hl hi
      (others_nonempty h2 hi) h
  exact ⟨reports, results, h1, h2, h3⟩

/-- **C64** (partial, likewise).  And it can always run to its end. -/
theorem C64_returns_partial (rng : sp.Rng) (hf : b.Lawful) (hp : ParamsWork sp ids signer) (hn : roundsNum ≠ 0)
    (hw : b.Works roundsNum) (he : plainEcho = false ∨ echo = true ∧ roundsNum = 1) (h2 : 2 ≤ partyCount ids) {l : List sp.Id}
    (hl : (benchGroup sp b checks plainEcho roundsNum echo ids signer sid).Enum l) :
    ∃ o, RunSync sid ((benchGroup sp b checks plainEcho roundsNum echo ids signer sid).nodes l) o :=
  C53_returns (bench_ok hf hp hn hw he h2) rng hl

/-- **C64** (partial, likewise).  `run_async` returns a report with a result for each of up to 51 parties once nothing more can
happen. -/
theorem C64_async_partial (rng : sp.Rng) (hf : b.Lawful) (hp : ParamsWork sp ids signer) (hn : roundsNum ≠ 0)
    (hw : b.Works roundsNum) (he : plainEcho = false ∨ echo = true ∧ roundsNum = 1) (h2 : 2 ≤ partyCount ids)
    (hsize : ids.elems.length ≤ 51) {k : Nat} {x : Async (bench sp b checks plainEcho).wrap}
    (h : AsyncTakes (benchGroup sp b checks plainEcho roundsNum echo ids signer sid) k x)
    (hstuck : ∀ x', ¬ AsyncStep (benchGroup sp b checks plainEcho roundsNum echo ids signer sid) x x') :
    ∃ reports, x.Returns (benchGroup sp b checks plainEcho roundsNum echo ids signer sid) reports ∧
      ReportsAll (benchPlan sp b checks plainEcho roundsNum echo ids signer sid).scheme reports :=
  C58_returns_partial rng (bench_ok hf hp hn hw he h2) hsize h hstuck

end bench

/-! ### Instances -/

theorem unitWork_lawful : unitWork.Lawful := ⟨fun _ => ⟨_, rfl, rfl⟩, ⟨_, rfl, rfl⟩⟩

theorem unitWork_works (n : U8) : unitWork.Works n := fun _ _ _ => ⟨_, rfl⟩

theorem squareWork_lawful (checks : Bool) (iterations : Nat) : (squareWork checks iterations).Lawful := by
  refine ⟨fun w => ⟨_, rfl, ?_⟩, ⟨_, rfl, rfl⟩⟩
  have := Codec.varint_lawful w []
  rw [List.append_nil] at this
  show (Codec.varint.dec (Codec.varint.enc w)).map Prod.fst = some w
  rw [this]
  rfl

/-- **C64.**  The work of `async_session.rs` does not overflow, whatever the number of iterations, in the rounds 1 to 253; it is
repeated squaring modulo 2⁶⁴ − 59. -/
theorem C64_work (checks : Bool) (iterations : Nat) (c : U8) (h : c.val ≤ 253) :
    doWork checks iterations c = .ok ((fun x => x * x % (2 ^ 64 - 59))^[iterations] (c.val + 2)) := by
  have e2 : (2 : U8).val = 2 := rfl
  unfold doWork addU8
  rw [if_neg (by rw [e2]; omega)]
  have e3 : (c + 2).val = c.val + 2 := by
    rw [Fin.val_add, e2]
    exact Nat.mod_eq_of_lt (by omega)
  show workLoop checks iterations (c + 2).val = _
  rw [e3]
  exact workLoop_ok iterations (lt_of_le_of_lt (show c.val + 2 ≤ 255 by omega) (by decide))

/-- The bound is exact: in the rounds 254 and 255 the seed overflows, which is a panic if the checks are on; without them the
seeds of these rounds are 0 and 1, so that there the value computed is the seed. -/
theorem C64_work_overflow (checks : Bool) (iterations : Nat) (c : U8) (h : 254 ≤ c.val) :
    doWork checks iterations c = if checks = true then .error .panicOverflow else .ok (c.val - 254) := by
  have e2 : (2 : U8).val = 2 := rfl
  have hc := c.isLt
  unfold doWork addU8
  cases checks with
  | true => rw [if_pos ⟨rfl, by rw [e2]; omega⟩, if_pos rfl]
  | false =>
    rw [if_neg (by simp), if_neg (by simp)]
    have e3 : (c + 2).val = c.val - 254 := by
      rw [Fin.val_add, e2]
      omega
    show workLoop false iterations (c + 2).val = _
    rw [e3, workLoop_ok iterations (show c.val - 254 < 2 ^ 64 by omega)]
    have this : c.val - 254 = 0 ∨ c.val - 254 = 1 := by omega
    generalize c.val - 254 = x at this
    exact congrArg Except.ok (Function.iterate_fixed (by rcases this with e | e <;> subst e <;> decide) iterations)

/-- The two rounds exist. -/
example : 254 ≤ (254 : U8).val ∧ 254 ≤ (255 : U8).val := by decide

theorem squareWork_works (checks : Bool) (iterations : Nat) {n : U8} (h : n.val ≤ 253) : (squareWork checks iterations).Works n :=
  fun c _ h2 => ⟨_, C64_work checks iterations c (by omega)⟩

/-- The nodes of the benchmarks. -/
def benchIds (n : Nat) : BSet U8 := BSet.ofList ((List.range n).map (Fin.ofNat 256))

theorem benchIds_many : 2 ≤ (benchIds 25).elems.length := by decide +kernel

theorem benchIds_ten : 2 ≤ (benchIds 10).elems.length ∧ (benchIds 10).elems.length ≤ 51 := by decide +kernel

/-- The benchmark "25 nodes, 5 rounds, no echo" panics. -/
example {R : RandomSource} {sid : Bytes} {l : List U8}
    (hl : (benchGroup (testParams R) unitWork false true 5 false (benchIds 25) (fun i => i) sid).Enum l)
    {o : Except SyncErr (BMap U8 (Report (bench (testParams R) unitWork false true).wrap))}
    (h : RunSync sid ((benchGroup (testParams R) unitWork false true 5 false (benchIds 25) (fun i => i) sid).nodes l) o) :
    o = .error (.local .notImplemented) :=
  C64_no_echo_violation (sp := testParams R) benchIds_many hl h

/-- So does the benchmark "25 nodes, 5 rounds, echo each round". -/
example {R : RandomSource} {sid : Bytes} {l : List U8}
    (hl : (benchGroup (testParams R) unitWork false true 5 true (benchIds 25) (fun i => i) sid).Enum l)
    {o : Except SyncErr (BMap U8 (Report (bench (testParams R) unitWork false true).wrap))}
    (h : RunSync sid ((benchGroup (testParams R) unitWork false true 5 true (benchIds 25) (fun i => i) sid).nodes l) o) :
    ¬ ∃ (reports : BMap U8 (Report (bench (testParams R) unitWork false true).wrap)) (results : BMap U8 Unit), o = .ok reports ∧
      executionResults (P := (bench (testParams R) unitWork false true).wrap) reports = .ok results :=
  (C64_echo_violation (sp := testParams R) (by decide) benchIds_many).2 l o hl h

/-- In the benchmarks of `async_session.rs` no session is created. -/
example {R : RandomSource} {sid : Bytes} {k : Nat} {x : Async (bench (testParams R) (squareWork false 1000000) false true).wrap}
    (h : AsyncTakes (benchGroup (testParams R) (squareWork false 1000000) false true 1 false (benchIds 10) (fun i => i) sid) k x) :
    ∀ reports, ¬ x.Returns (benchGroup (testParams R) (squareWork false 1000000) false true 1 false (benchIds 10) (fun i => i) sid)
      reports :=
  (C64_async_violation (sp := testParams R) benchIds_ten.1 h).2

/-- If `EmptyRound` had no echo broadcasts, the first two benchmarks would measure what they say (apart from the echo rounds after the
first). -/
example {R : RandomSource} (rng : R.Rng) {echo : Bool} {sid : Bytes} {l : List U8}
    (hl : (benchGroup (testParams R) unitWork false false 5 echo (benchIds 25) (fun i => i) sid).Enum l)
    {o : Except SyncErr (BMap U8 (Report (bench (testParams R) unitWork false false).wrap))}
    (h : RunSync sid ((benchGroup (testParams R) unitWork false false 5 echo (benchIds 25) (fun i => i) sid).nodes l) o) :
    ∃ (reports : BMap U8 (Report (bench (testParams R) unitWork false false).wrap)) (results : BMap U8 Unit), o = .ok reports ∧
      executionResults (P := (bench (testParams R) unitWork false false).wrap) reports = .ok results ∧
      ∀ j : U8, results.contains j = (benchIds 25).contains j :=
  C64_results_partial (sp := testParams R) rng unitWork_lawful (test_works R (benchIds 25)) (by decide) (unitWork_works 5)
    (Or.inl rfl) benchIds_many hl h

/-- And so would the other two. -/
example {R : RandomSource} (rng : R.Rng) {sid : Bytes} {k : Nat}
    {x : Async (bench (testParams R) (squareWork false 1000000) false false).wrap}
    (h : AsyncTakes (benchGroup (testParams R) (squareWork false 1000000) false false 1 false (benchIds 10) (fun i => i) sid) k x)
    (hstuck : ∀ x', ¬ AsyncStep (benchGroup (testParams R) (squareWork false 1000000) false false 1 false (benchIds 10)
      (fun i => i) sid) x x') :
    ∃ reports, x.Returns (benchGroup (testParams R) (squareWork false 1000000) false false 1 false (benchIds 10) (fun i => i) sid)
      reports :=
  have ⟨reports, h, _⟩ := C64_async_partial (sp := testParams R) rng (squareWork_lawful false 1000000) (test_works R (benchIds 10))
    (by decide) (squareWork_works false 1000000 (by decide)) (Or.inl rfl) benchIds_ten.1 benchIds_ten.2 h hstuck
  ⟨reports, h⟩

end Manul
