import Verif.Spec.Deviate
import Verif.Lemmas.SchemeInv

/-!
# Executions in which one party deviates: its sessions

The sessions of the deviating party have the same accumulators as those of a party following the protocol, and differ in the
round object only.
-/

namespace Manul

variable {sp : SP} {P : Proto sp}

/-- Round objects that are like each other. -/
inductive TwinR (like : Nat → P.Rd → P.Rd → Prop) (k : Nat) : SRound P → SRound P → Prop where
  | main {r r' : P.Rd} : like k r r' → TwinR like k (.main r) (.main r')
  | echo {e : EchoRd P} {r' : P.Rd} : like k e.main r' → TwinR like k (.echo e) (.echo { e with main := r' })

/-- The second message was made by the twin of the session the first one was made by. -/
structure TwinMsg (s : Session P) (x : SRound P) (same : Prop) (m m' : Message sp) : Prop where
  made : ∃ art, Made { s with round := x } m.destination m' art
  orig : ∃ art, Made s m.destination m art
  same : same → m' = m

/-- Both ended with the same errors, or both go on in sessions that differ in the round object only. -/
inductive TwinOutcome (like : Nat → P.Rd → P.Rd → Prop) (k : Nat) : RoundOutcome P → RoundOutcome P → Prop where
  | finished {r r' : Report P} : r'.provable = r.provable → r'.unprovable = r.unprovable →
      TwinOutcome like k (.finished r) (.finished r')
  | anotherRound {s : Session P} {x : SRound P} {cs : List (VerifiedMessage sp)} : TwinR like k s.round x →
      TwinOutcome like k (.anotherRound s cs) (.anotherRound { s with round := x } cs)

namespace Deviation

variable {sc : Scheme P} {g : Group P} {t : sp.Id} {K : Nat} {ch : Charge sp} {like : Nat → P.Rd → P.Rd → Prop} (dv : Deviation sc g t K ch like)
include dv

theorem twin_transition {k : Nat} {r x : SRound P} (h : TwinR like k r x) : x.transition = r.transition := by
  cases h with
  | main h => simp only [SRound.transition, dv.transition h]
  | echo h => simp only [SRound.transition, EchoRd.transition, dv.transition h]

theorem twin_comm {k : Nat} {r x : SRound P} (h : TwinR like k r x) : x.comm = r.comm := by
  cases h with
  | main h => simp only [SRound.comm, dv.comm h]
  | echo h => rfl

theorem twin_makeEcho {k : Nat} {r x : SRound P} (h : TwinR like k r x) (rng : sp.Rng) : x.makeEcho rng = r.makeEcho rng := by
  cases h with
  | main h => simp only [SRound.makeEcho, dv.makeEcho h]
  | echo h => rfl

theorem twin_makeNormal {k : Nat} {r x : SRound P} (h : TwinR like k r x) (rng : sp.Rng) :
    x.makeNormal rng = r.makeNormal rng := by
  cases h with
  | main h => simp only [SRound.makeNormal, dv.makeNormal h]
  | echo h => rfl

theorem twin_receive {k : Nat} {r x : SRound P} (h : TwinR like k r x) (y : sp.Id) (m : DynMsg) :
    x.receive y m = r.receive y m := by
  cases h with
  | main h => simp only [SRound.receive, dv.receive h]
  | echo h => rfl

theorem twin_makeDirect {k : Nat} {r x : SRound P} (h : TwinR like k r x) {rng : sp.Rng} {j : sp.Id} {p : Part .direct}
    {art : Option P.Artifact} (hm : r.makeDirect rng j = .ok (p, art)) :
    ∃ p', x.makeDirect rng j = .ok (p', art) ∧ ((k < K ∨ ∃ e, r = .echo e) → p' = p) := by
  cases h with
  | @main r r' h =>
    simp only [SRound.makeDirect] at hm ⊢
    cases hd : P.makeDirect r rng j with
    | error e => rw [hd] at hm; cases hm
    | ok z =>
      obtain ⟨q, b⟩ := z
      rw [hd] at hm
      simp only [Except.ok.injEq, Prod.mk.injEq] at hm
      obtain ⟨rfl, rfl⟩ := hm
      obtain ⟨p', h1, h2⟩ := dv.makeDirect h rng j q b hd
      refine ⟨p', by rw [h1], ?_⟩
      rintro (h3 | ⟨e, h3⟩)
      · exact h2 h3
      · cases h3
  | echo h =>
    exact ⟨p, hm, fun _ => rfl⟩

theorem twin_deliver {k : Nat} {s : Session P} {x : SRound P} (h : TwinR like k s.round x) (a : Accum P) (y : sp.Id)
    (m : Message sp) : deliver { s with round := x } a y m = deliver s a y m := by
  unfold deliver
  have hp : Session.preprocess { s with round := x } a y m = s.preprocess a y m := rfl
  rw [hp]
  cases s.preprocess a y m with
  | error e => rfl
  | ok z =>
    obtain ⟨a', o⟩ := z
    simp only
    cases o.ok? with
    | none => rfl
    | some vm => simp only [applyVerified, Session.process, dv.twin_receive h]; rfl

theorem twin_apply {k : Nat} {s : Session P} {x : SRound P} (h : TwinR like k s.round x) :
    applyVerified { s with round := x } = applyVerified s := by
  funext a vm
  simp only [applyVerified, Session.process, dv.twin_receive h]
  rfl

theorem twin_new {k : Nat} {rng : sp.Rng} {sid : Bytes} {signer : sp.Signer} {r x : SRound P} (h : TwinR like k r x)
    {tr : Transcript sp} {s : Session P} (hs : Session.newForNextRound rng sid signer r tr = .ok s) :
    Session.newForNextRound rng sid signer x tr = .ok { s with round := x } ∧ s.round = r := by
  unfold Session.newForNextRound at hs ⊢
  rw [dv.twin_transition h]
  cases h1 : r.transition with
  | error e => rw [h1] at hs; cases hs
  | ok ti =>
    simp only [h1, dv.twin_comm h, dv.twin_makeEcho h, dv.twin_makeNormal h] at hs ⊢
    split at hs
    · cases hs
    · split at hs
      · cases hs
      · split at hs
        · cases hs
        · split at hs
          · cases hs
          · rename_i h2 _ _ h3 _ _ h4 _ _ h5
            simp only [Except.ok.injEq] at hs
            subst hs
            simp only [h2, h3, h4, h5, and_self]

theorem twin_send (env : sp.EnvOk) {k : Nat} {s : Session P} {x : SRound P} (h : TwinR like k s.round x) {rng : sp.Rng}
    {ds : List sp.Id} : ∀ {i : Nat} {a a' : Accum P} {ms : List (Message sp)}, sendAll s rng i a ds = .ok (a', ms) →
    ∃ ms', sendAll { s with round := x } rng i a ds = .ok (a', ms') ∧
      List.Forall₂ (TwinMsg s x (k < K ∨ ∃ e, s.round = .echo e)) ms ms' := by
  induction ds with
  | nil =>
    intro i a a' ms hs
    simp only [sendAll, Except.ok.injEq, Prod.mk.injEq] at hs
    obtain ⟨rfl, rfl⟩ := hs
    exact ⟨[], rfl, .nil⟩
  | cons d ds ih =>
    intro i a a' ms hs
    simp only [sendAll] at hs ⊢
    cases hm : s.makeMessage (sp.fork rng i) d with
    | error e => rw [hm] at hs; cases hs
    | ok z =>
      obtain ⟨m, art⟩ := z
      have hmade := makeMessage_ok hm
      have htwin : ∃ m', Session.makeMessage { s with round := x } (sp.fork rng i) d = .ok (m', art) ∧
          ((k < K ∨ ∃ e, s.round = .echo e) → m' = m) := by
        unfold Session.makeMessage at hm ⊢
        cases hd : s.round.makeDirect (sp.fork (sp.fork rng i) 0) d with
        | error e => rw [hd] at hm; cases hm
        | ok z =>
          obtain ⟨p, b⟩ := z
          obtain ⟨p', h1, h2⟩ := dv.twin_makeDirect h hd
          obtain ⟨q, hq⟩ := sign_total env (sp.fork (sp.fork rng i) 1) s.signer s.sessionId s.transition.id p'
          rw [hd] at hm
          simp only [Message.new] at hm ⊢
          cases hsg : SignedPart.new sp (sp.fork (sp.fork rng i) 1) s.signer s.sessionId s.transition.id p with
          | error e => rw [hsg] at hm; cases hm
          | ok q0 =>
            rw [hsg] at hm
            simp only [Except.ok.injEq, Prod.mk.injEq] at hm
            obtain ⟨rfl, rfl⟩ := hm
            refine ⟨⟨d, q, s.echo, s.normal⟩, by simp only [h1, hq], ?_⟩
            intro h3
            rw [h2 h3, hsg] at hq
            simp only [Except.ok.injEq] at hq
            rw [hq]
      obtain ⟨m', hm', hsame⟩ := htwin
      have hmade' := makeMessage_ok hm'
      rw [hm] at hs
      simp only [hm'] at hs ⊢
      cases haa : a.addArtifact art with
      | error e => rw [haa] at hs; cases hs
      | ok a1 =>
        simp only [haa] at hs ⊢
        cases hr : sendAll s rng (i + 1) a1 ds with
        | error e => rw [hr] at hs; cases hs
        | ok z =>
          obtain ⟨a2, ms2⟩ := z
          rw [hr] at hs
          simp only [Except.ok.injEq, Prod.mk.injEq] at hs
          obtain ⟨rfl, rfl⟩ := hs
          obtain ⟨ms', h1, h2⟩ := ih hr
          refine ⟨m' :: ms', by simp only [h1], .cons ⟨⟨art, ?_⟩, ⟨art, ?_⟩, hsame⟩ h2⟩
          · rw [hmade.destination]
            exact hmade'
          · rw [hmade.destination]
            exact hmade

/-- Starting a round. -/
theorem twin_startRound (env : sp.EnvOk) {k : Nat} {s : Session P} {x : SRound P} (h : TwinR like k s.round x) {rng : sp.Rng}
    {cs : List (VerifiedMessage sp)} {a : Accum P} {out : List (Message sp)} (hs : startRound s rng cs = .ok (a, out)) :
    ∃ out', startRound { s with round := x } rng cs = .ok (a, out') ∧
      List.Forall₂ (TwinMsg s x (k < K ∨ ∃ e, s.round = .echo e)) out out' := by
  unfold startRound at hs ⊢
  cases h1 : sendAll s rng 0 s.makeAccum s.destinations.elems with
  | error e => rw [h1] at hs; cases hs
  | ok z =>
    obtain ⟨a1, ms⟩ := z
    obtain ⟨ms', h2, h3⟩ := dv.twin_send env h h1
    rw [h1] at hs
    have e1 : Session.makeAccum { s with round := x } = s.makeAccum := rfl
    have e2 : Session.destinations { s with round := x } = s.destinations := rfl
    rw [e1, e2, h2, dv.twin_apply h]
    simp only at hs ⊢
    cases hf : foldE (applyVerified s) a1 cs with
    | error e => rw [hf] at hs; cases hs
    | ok a2 =>
      rw [hf] at hs
      simp only [Except.ok.injEq, Prod.mk.injEq] at hs
      obtain ⟨rfl, rfl⟩ := hs
      exact ⟨ms', rfl, h3⟩

theorem twin_finalize {k : Nat} {r x : SRound P} (h : TwinR like k r x) {rng : sp.Rng} {ps : BMap sp.Id (Option P.Payload)}
    {as : BMap sp.Id (Option P.Artifact)} {o : Outcome P.Rd P.Result} (ho : r.finalize rng ps as = .ok o) :
    ∃ o', x.finalize rng ps as = .ok o' ∧ LikeOutcome like k o o' := by
  have key : ∀ {r r' : P.Rd} {ps : BMap sp.Id (Option P.Payload)} {as : BMap sp.Id (Option P.Artifact)}, like k r r' →
      SRound.finalizeMain r rng ps as = .ok o → ∃ o', SRound.finalizeMain r' rng ps as = .ok o' ∧ LikeOutcome like k o o' := by
    intro r r' ps as hl ho
    unfold SRound.finalizeMain at ho ⊢
    cases h1 : downcastAll ps with
    | error e => rw [h1] at ho; cases ho
    | ok ps' =>
      cases h2 : downcastAll as with
      | error e => rw [h1, h2] at ho; cases ho
      | ok as' =>
        rw [h1, h2] at ho
        exact dv.finalize hl rng ps' as' o ho
  cases h with
  | main h => exact key h ho
  | echo h => exact key h ho

/-- Going to the next position, or to the end. -/
theorem twin_finalizeRound {k : Nat} {s : Session P} {x : SRound P} (h : TwinR like k s.round x) {rng : sp.Rng} {a : Accum P}
    {o : RoundOutcome P} (ho : s.finalizeRound rng a = .ok o) :
    ∃ o', Session.finalizeRound { s with round := x } rng a = .ok o' ∧
      TwinOutcome like (if s.echoInfo.isSome then k else k + 1) o o' := by
  unfold Session.finalizeRound at ho ⊢
  have e1 : Session.updatedTranscript { s with round := x } a = s.updatedTranscript a := rfl
  rw [e1]
  cases hu : s.updatedTranscript a with
  | error e => rw [hu] at ho; cases ho
  | ok tr =>
    rw [hu] at ho
    simp only at ho ⊢
    cases hei : s.echoInfo with
    | some info =>
      rw [hei] at ho
      simp only at ho ⊢
      cases hr : s.round with
      | echo e => rw [hr] at ho; cases ho
      | main r =>
        rw [hr] at ho h
        simp only at ho
        cases h with
        | @main r r' hl =>
          unfold Session.startEcho at ho
          cases hb : tr.echoBroadcasts s.roundId with
          | error e => rw [hb] at ho; cases ho
          | ok ebs =>
            rw [hb] at ho
            simp only at ho
            have ht : TwinR like k (.echo ⟨s.me, ebs, info, r, a.payloads, a.artifacts⟩ : SRound P)
              (.echo ⟨s.me, ebs, info, r', a.payloads, a.artifacts⟩) := .echo (e := ⟨s.me, ebs, info, r, a.payloads, a.artifacts⟩) hl
            split at ho
            · cases ho
            · rename_i tt htt
              split at ho
              · cases ho
              · rename_i s1 hs1
                simp only [Except.ok.injEq] at ho
                subst ho
                obtain ⟨hn, hround⟩ := dv.twin_new ht hs1
                refine ⟨_, ?_, .anotherRound (x := .echo ⟨s.me, ebs, info, r', a.payloads, a.artifacts⟩) (by rw [hround]; exact ht)⟩
                simp only [Session.startEcho]
                simp only [Session.roundId] at hb ⊢
                simp only [hb]
                rw [dv.twin_transition ht, htt]
                simp only [hn]
    | none =>
      rw [hei] at ho
      simp only at ho ⊢
      unfold Session.finalizeProper at ho ⊢
      cases hf : s.round.finalize (sp.fork rng 0) a.payloads a.artifacts with
      | error e => rw [hf] at ho; cases ho
      | ok out =>
        have htw := dv.twin_finalize h hf
        obtain ⟨out', hq', hl⟩ := htw
        cases out with
        | result v =>
          cases out' with
          | anotherRound q' => exact hl.elim
          | result v' =>
          rw [hf] at ho
          simp only [Except.ok.injEq] at ho
          subst ho
          exact ⟨.finished (Report.new (.result v') tr), by simp only [hq'], .finished rfl rfl⟩
        | anotherRound q =>
          cases out' with
          | result v' => exact hl.elim
          | anotherRound q' =>
          rw [hf] at ho
          simp only at ho
          have ht : TwinR like (k + 1) (.main q : SRound P) (.main q') := .main hl
          split at ho
          · cases ho
          · rename_i hch
            split at ho
            · cases ho
            · rename_i s1 hs1
              simp only [Except.ok.injEq] at ho
              subst ho
              obtain ⟨hn, hround⟩ := dv.twin_new ht hs1
              refine ⟨_, ?_, .anotherRound (x := .main q') (by rw [hround]; exact ht)⟩
              simp only [hq']
              rw [dv.transition hl]
              simp only [hch, if_false, hn]
              rfl

end Deviation

end Manul
