import Verif.Props.Run
import Verif.Props.Transcript
import Verif.Props.Echo
import Verif.Spec.Crash

/-! # When the calls of a run fail -/

namespace Manul

variable {sp : SP} {P : Proto sp}

theorem sign_total (env : sp.EnvOk) {k : PartKind} (rng : sp.Rng) (signer : sp.Signer) (sid : Bytes) (rid : RoundId)
    (p : Part k) : ∃ q, SignedPart.new sp rng signer sid rid p = .ok q := by
  unfold SignedPart.new SP.messageDigest
  obtain ⟨b, hb⟩ := env.serMeta ⟨sid, rid⟩
  simp only [hb]
  obtain ⟨sg, hs⟩ := env.sign signer rng (prefixDigest ++ b ++ be64 (sp.partHash p).length ++ sp.partHash p)
  obtain ⟨c, hc⟩ := env.serSig sg
  simp only [hs, hc]
  exact ⟨_, rfl⟩

/-- A session for a round whose methods work can be made. -/
theorem next_total (env : sp.EnvOk) {rng : sp.Rng} {sid : Bytes} {signer : sp.Signer} {round : SRound P} {t : Transcript sp}
    (h1 : ∃ tr, round.transition = .ok tr) (h2 : ∀ rng, ∃ p, round.makeEcho rng = .ok p)
    (h3 : ∀ rng, ∃ p, round.makeNormal rng = .ok p) : ∃ s, Session.newForNextRound rng sid signer round t = .ok s := by
  unfold Session.newForNextRound
  obtain ⟨tr, h1⟩ := h1
  simp only [h1]
  have h2' : ∃ p, (if round.comm.destinations.isEmpty then Except.ok Part.none else round.makeEcho (sp.fork rng 0)) = .ok p := by
    split
    · exact ⟨_, rfl⟩
    · exact h2 _
  have h3' : ∃ p, (if round.comm.destinations.isEmpty then Except.ok Part.none else round.makeNormal (sp.fork rng 2)) =
      .ok p := by
    split
    · exact ⟨_, rfl⟩
    · exact h3 _
  obtain ⟨e, h2'⟩ := h2'
  obtain ⟨n, h3'⟩ := h3'
  obtain ⟨qe, hqe⟩ := sign_total env (sp.fork rng 1) signer sid tr.id e
  obtain ⟨qn, hqn⟩ := sign_total env (sp.fork rng 3) signer sid tr.id n
  simp only [h2', hqe, h3', hqn]
  exact ⟨_, rfl⟩

theorem next_main_total (env : sp.EnvOk) {I : P.Rd → Prop} (lo : LocalOk P I) {rng : sp.Rng} {sid : Bytes} {signer : sp.Signer} {r : P.Rd}
    (hI : I r) {t : Transcript sp} : ∃ s, Session.newForNextRound rng sid signer (.main r) t = .ok s :=
  next_total env ⟨_, rfl⟩ (fun rng => lo.makeEcho r rng hI) (fun rng => lo.makeNormal r rng hI)

theorem next_echo_total (env : sp.EnvOk) (mi : MainIds P) {rng : sp.Rng} {sid : Bytes} {signer : sp.Signer} {e : EchoRd P}
    {t : Transcript sp} (he : e.echoBroadcasts.contains e.verifier = true) :
    ∃ s, Session.newForNextRound rng sid signer (.echo e) t = .ok s := by
  refine next_total env ?_ (fun _ => ⟨_, rfl⟩) ?_
  · have := mi e.main
    simp only [SRound.transition, EchoRd.transition, TransitionInfo.echo, RoundId.echo, this]
    exact ⟨_, rfl⟩
  · intro rng
    obtain ⟨b, hb⟩ := env.serEcho e.pack.toList
    simp only [SRound.makeNormal, EchoRd.makeNormal, he, if_true, SP.serEcho, hb]
    exact ⟨_, rfl⟩

theorem makeMessage_total (env : sp.EnvOk) {I : P.Rd → Prop} (lo : LocalOk P I) {s : Session P} (hp : Proper s)
    (hI : ∀ r, s.round = .main r → I r) (rng : sp.Rng) {d : sp.Id} (hd : s.destinations.contains d = true) :
    ∃ m art, s.makeMessage rng d = .ok (m, art) ∧ art.destination = d := by
  have : ∃ p v, s.round.makeDirect (sp.fork rng 0) d = .ok (p, v) := by
    cases hr : s.round with
    | echo e => exact ⟨_, _, rfl⟩
    | main r =>
      obtain ⟨⟨p, v⟩, h⟩ := lo.makeDirect r (sp.fork rng 0) d (hI r hr) (by
        rw [← (roundId_main hp hr).2]
        exact hd)
      exact ⟨p, some v, by simp [SRound.makeDirect, h]⟩
  obtain ⟨p, v, h⟩ := this
  obtain ⟨q, hq⟩ := sign_total env (sp.fork rng 1) s.signer s.sessionId s.transition.id p
  unfold Session.makeMessage Message.new
  simp only [h, hq]
  exact ⟨_, _, rfl, rfl⟩

theorem sendAll_total (env : sp.EnvOk) {I : P.Rd → Prop} (lo : LocalOk P I) {s : Session P} (hp : Proper s)
    (hI : ∀ r, s.round = .main r → I r) {rng : sp.Rng} {i : Nat} {a : Accum P} {ds : List sp.Id}
    (hds : ∀ d ∈ ds, s.destinations.contains d = true) (hn : ds.Nodup) (ha : ∀ d ∈ ds, a.artifacts.contains d = false) :
    ∃ a' ms, sendAll s rng i a ds = .ok (a', ms) := by
  induction ds generalizing i a with
  | nil => exact ⟨_, _, rfl⟩
  | cons d ds ih =>
    obtain ⟨m, art, hm, hd⟩ := makeMessage_total env lo hp hI (sp.fork rng i) (hds d (List.mem_cons_self ..))
    rw [List.nodup_cons] at hn
    have hc : a.artifacts.contains art.destination = false := by rw [hd]; exact ha d (List.mem_cons_self ..)
    obtain ⟨a', ms, h⟩ := ih (fun d' hd' => hds d' (List.mem_cons_of_mem _ hd')) (i := i + 1) (a := { a with artifacts := a.artifacts.insert art.destination art.artifact }) hn.2 (by
      intro d' hd'
      rw [hd]
      have hne : d' ≠ d := fun h => hn.1 (h ▸ hd')
      have := ha d' (List.mem_cons_of_mem _ hd')
      simp [hne, this])
    simp only [sendAll, hm, Accum.addArtifact, hc, Bool.false_eq_true, if_false, h]
    exact ⟨_, _, rfl⟩

/-- Parts other than artifacts are not touched by sending. -/
theorem sendAll_loc {s : Session P} {rng : sp.Rng} {i : Nat} {a a' : Accum P} {ds : List sp.Id} {ms : List (Message sp)}
    (h : sendAll s rng i a ds = .ok (a', ms)) :
    a'.payloads = a.payloads ∧ a'.notSent = a.notSent ∧ a'.provable = a.provable ∧ a'.unprovable = a.unprovable := by
  induction ds generalizing i a ms with
  | nil =>
    simp only [sendAll, Except.ok.injEq, Prod.mk.injEq] at h
    obtain ⟨rfl, -⟩ := h
    exact ⟨rfl, rfl, rfl, rfl⟩
  | cons d ds ih =>
    simp only [sendAll] at h
    split at h
    · simp at h
    · split at h
      · simp at h
      · rename_i a1 h1
        split at h
        · simp at h
        · rename_i a2 ms' h2
          simp only [Except.ok.injEq, Prod.mk.injEq] at h
          obtain ⟨rfl, -⟩ := h
          obtain ⟨e1, e2, e3, e4⟩ := ih h2
          unfold Accum.addArtifact at h1
          split at h1
          · simp at h1
          · simp only [Except.ok.injEq] at h1
            subst h1
            exact ⟨e1, e2, e3, e4⟩

/-- The round of `s` never reports a local error, and its protocol errors can be turned into evidence. -/
structure Benign (s : Session P) : Prop where
  receive : ∀ x m e, s.comm.expecting.contains x = true → s.round.receive x m ≠ .error (.local e)
  assembles : Assembles s

theorem add_error {s : Session P} {vm : VerifiedMessage sp} {l : Loc P} {e : LErr} (hb : Benign s)
    (hau : Authentic vm.sender s.sessionId s.transition.id vm.direct vm.echo vm.normal) (hp : l.provable = none)
    (hx : l.notSent = true → s.comm.expecting.contains vm.sender = true)
    (h : Loc.add s.transcript (s.process vm) l = .error e) :
    (e = .dupPayload ∧ l.payload.isSome = true) ∨ (e = .unexpectedSender ∧ l.payload = none ∧ l.notSent = false) := by
  unfold Loc.add at h
  by_cases h1 : l.payload.isSome = true
  · simp only [h1, if_true, Except.error.injEq] at h
    exact Or.inl ⟨h.symm, h1⟩
  · rw [if_neg h1] at h
    by_cases h2 : l.notSent = false
    · rw [if_pos h2] at h
      simp only [Except.error.injEq] at h
      exact Or.inr ⟨h.symm, by simpa using h1, h2⟩
    · rw [if_neg h2] at h
      exfalso
      have hx' := hx (by simpa using h2)
      cases hr : (s.process vm).result with
      | ok v => simp [hr] at h
      | error x =>
        have hr' : s.round.receive vm.sender vm.dyn = .error x := hr
        cases x with
        | «local» err => exact hb.receive _ _ _ hx' hr'
        | invalidDirect => simp [hr, Loc.prove, hp] at h
        | invalidEcho => simp [hr, Loc.prove, hp] at h
        | invalidNormal => simp [hr, Loc.prove, hp] at h
        | unprovable err => simp [hr] at h
        | echo err => simp [hr, Loc.prove, hp] at h
        | protocol req ser =>
          obtain ⟨ev, hev⟩ := hb.assembles vm req ser hx' hau hr'
          simp only [hr] at h
          have hm : (s.process vm).message = vm := rfl
          rw [hm, hev] at h
          simp [Loc.prove, hp] at h

/-- Applying the messages kept for a round fails only if one of them is from an unexpected party. -/
theorem cached_error {s : Session P} (hb : Benign s) {a : Accum P} {cached : List (VerifiedMessage sp)} {e : LErr}
    (hnd : (cached.map (fun m => m.sender)).Nodup)
    (hau : ∀ vm ∈ cached, Authentic vm.sender s.sessionId s.transition.id vm.direct vm.echo vm.normal)
    (ha : ∀ vm ∈ cached, (a.loc vm.sender).payload = none ∧ (a.loc vm.sender).provable = none ∧
      (a.loc vm.sender).notSent = s.comm.expecting.contains vm.sender)
    (h : foldE (applyVerified s) a cached = .error e) :
    e = .unexpectedSender ∧ ∃ vm ∈ cached, s.comm.expecting.contains vm.sender = false := by
  induction cached generalizing a with
  | nil => simp [foldE] at h
  | cons vm l ih =>
    simp only [List.map_cons, List.nodup_cons] at hnd
    simp only [foldE] at h
    obtain ⟨h1, h2, h3⟩ := ha vm (List.mem_cons_self ..)
    have hloc : applyVerified s a vm = liftLoc a vm.sender (Loc.add s.transcript (s.process vm) (a.loc vm.sender)) := by
      unfold applyVerified Session.addProcessed
      rw [addProcessed_loc]
      rfl
    cases hadd : Loc.add s.transcript (s.process vm) (a.loc vm.sender) with
    | error e' =>
      rw [hloc, hadd] at h
      simp only [liftLoc, Except.error.injEq] at h
      subst h
      rcases add_error hb (hau vm (List.mem_cons_self ..)) h2 (fun hn => h3 ▸ hn) hadd with ⟨-, hc⟩ | ⟨he, -, hn⟩
      · simp [h1] at hc
      · exact ⟨he, vm, List.mem_cons_self .., by rw [← h3]; exact hn⟩
    | ok l' =>
      rw [hloc, hadd] at h
      simp only [liftLoc] at h
      obtain ⟨he, vm', hvm', hx⟩ := ih hnd.2 (fun v hv => hau v (List.mem_cons_of_mem _ hv)) (by
        intro v hv
        have hne : v.sender ≠ vm.sender := fun hc => hnd.1 (hc ▸ List.mem_map_of_mem hv)
        rw [Accum.loc_setLoc_other _ hne]
        exact ha v (List.mem_cons_of_mem _ hv)) h
      exact ⟨he, vm', List.mem_cons_of_mem _ hvm', hx⟩

/-- Entering a round fails only if a message kept for it is from an unexpected party. -/
theorem startRound_error (env : sp.EnvOk) {I : P.Rd → Prop} (lo : LocalOk P I) {s : Session P} (hp : Proper s)
    (hI : ∀ r, s.round = .main r → I r) (hb : Benign s) {rng : sp.Rng}
    {cached : List (VerifiedMessage sp)} {e : LErr} (hnd : (cached.map (fun m => m.sender)).Nodup)
    (hau : ∀ vm ∈ cached, Authentic vm.sender s.sessionId s.transition.id vm.direct vm.echo vm.normal)
    (h : startRound s rng cached = .error e) :
    e = .unexpectedSender ∧ ∃ vm ∈ cached, s.comm.expecting.contains vm.sender = false := by
  unfold startRound at h
  obtain ⟨a, ms, hs⟩ := sendAll_total env lo hp hI (rng := rng) (i := 0) (a := s.makeAccum)
    (ds := s.destinations.elems) (fun d hd => BSet.mem_elems.1 hd) (BSet.elems_nodup _) (by intro d _; simp [Session.makeAccum, Accum.new])
  simp only [hs] at h
  obtain ⟨e1, e2, e3, e4⟩ := sendAll_loc hs
  cases hf : foldE (applyVerified s) a cached with
  | ok a' => simp [hf] at h
  | error e' =>
    simp only [hf, Except.error.injEq] at h
    subst h
    refine cached_error hb hnd hau ?_ hf
    intro vm _
    simp [Accum.loc, e1, e2, e3, Session.makeAccum, Accum.new]

/-- A party with a result that was not delivered in the round has one from a message kept for the round. -/
structure CInv (s : Session P) (cached : List (VerifiedMessage sp)) (x : sp.Id) (l : Loc P) : Prop where
  payload : l.payload.isSome = true → l.processing = false → ∃ vm ∈ cached, vm.sender = x
  banned : l.banned = true → s.transcript.isBanned x = true → ∃ vm ∈ cached, vm.sender = x

theorem seqRound_cinv {s : Session P} {rng : sp.Rng} {cached : List (VerifiedMessage sp)} {l : List (sp.Id × Message sp)}
    {b : Accum P} (h : SeqRound s rng cached l b) (x : sp.Id) : CInv s cached x (b.loc x) := by
  refine seqRound_inv h ?_ ?_ ?_ ?_ x
  · intro x
    constructor <;> simp [Session.makeAccum, Accum.loc, Accum.new, Loc.banned]
  · intro x p u u' hi hu
    obtain ⟨-, rfl⟩ := art_ok hu
    obtain ⟨h1, h2⟩ := hi
    exact ⟨h1, h2⟩
  · intro vm u u' hvm _ _
    exact ⟨fun _ _ => ⟨vm, hvm, rfl⟩, fun _ _ => ⟨vm, hvm, rfl⟩⟩
  · intro x m u u' hi hu
    obtain ⟨h1, h2⟩ := hi
    cases deliver_cases hu with
    | ignored _ => exact ⟨h1, h2⟩
    | refused ht _ => exact ⟨h1, fun _ hc => by simp [ht] at hc⟩
    | processed ht _ _ _ _ _ hadd =>
      refine ⟨?_, fun _ hc => by simp [ht] at hc⟩
      intro _ hpr
      cases hadd <;> simp at hpr
    | kept ht _ _ _ _ _ _ =>
      exact ⟨h1, fun _ hc => by simp [ht] at hc⟩

/-- Delivering a message fails only for the two reasons. -/
theorem deliver_error (env : sp.EnvOk) (mi : MainIds P) {s : Session P} (hp : Proper s) (hb : Benign s) {rng : sp.Rng}
    {cached : List (VerifiedMessage sp)} {l : List (sp.Id × Message sp)} {a : Accum P} (h : SeqRound s rng cached l a)
    {x : sp.Id} {m : Message sp} {e : LErr} (he : deliver s a x m = .error e) : CrashCause s a cached (.deliver x m) e := by
  obtain ⟨v, hrow, hpre⟩ := C02_outcome_determined env.serMeta s (proper_wellFormed mi hp) a x m
  unfold deliver at he
  rw [hpre] at he
  cases hrow with
  | process hthis hpr hau =>
    have hb' : applyVerified s { a with processing := BSet.insert a.processing x } (verifiedOf x m) = .error e := he
    unfold applyVerified Session.addProcessed at hb'
    rw [addProcessed_loc] at hb'
    obtain ⟨hexp, hl⟩ := reach_linv (seqRound_reach h) x
    have hci := seqRound_cinv h x
    have hbn := hthis.1
    rw [← hasError_iff, Bool.or_eq_true, not_or] at hbn
    have hnb : (a.loc x).banned = false := by rw [← banned_loc]; simpa using hbn.2
    have hpv : (a.loc x).provable = none := by
      unfold Loc.banned at hnb
      simpa using (Bool.or_eq_false_iff.1 hnb).1
    cases hadd : Loc.add s.transcript (s.process (verifiedOf x m))
        (({ a with processing := BSet.insert a.processing x } : Accum P).loc x) with
    | ok l' =>
      have hs : (s.process (verifiedOf x m)).message.sender = x := rfl
      rw [hs, hadd] at hb'
      simp [liftLoc] at hb'
    | error e' =>
      have hs : (s.process (verifiedOf x m)).message.sender = x := rfl
      rw [hs, hadd] at hb'
      simp only [liftLoc, Except.error.injEq] at hb'
      subst hb'
      rcases add_error (vm := verifiedOf x m) hb hau (by exact hpv) (fun hn => by
          have := hl.notSent hn
          rwa [hexp] at this) hadd with ⟨rfl, hc⟩ | ⟨rfl, hc1, hc2⟩
      · obtain ⟨vm, hvm, hvs⟩ := hci.payload hc (by simpa [Accum.loc] using hpr)
        exact .again hvm hvs (by rw [contains_isSome]; exact hc) hau
      · refine .unexpected ?_ hau
        by_contra hc
        have hx : s.comm.expecting.contains x = true := by simpa using hc
        rcases hl.heard (by first | exact hx | (rw [← hexp] at hx; exact hx)) hc2 with h' | h'
        · have : (a.loc x).payload = none := hc1
          simp [this] at h'
        · simp [hnb] at h'
  | _ => simp [Verdict.effect, PreOutcome.ok?] at he

/-- Merging errors fails only if a party has an error already. -/
theorem mergeErrors_error {E : Type} {err e : LErr} {all new : BMap sp.Id E}
    (h : Transcript.mergeErrors err all new = .error e) :
    e = err ∧ ∃ x, new.contains x = true ∧ all.contains x = true := by
  unfold Transcript.mergeErrors at h
  have key : ∀ (l : List (sp.Id × E)) (all : BMap sp.Id E), (l.map Prod.fst).Nodup →
      foldE (fun m e => if m.contains e.1 then .error err else .ok (m.insert e.1 e.2)) all l = .error e →
      e = err ∧ ∃ x ∈ l.map Prod.fst, all.contains x = true := by
    intro l
    induction l with
    | nil => intro all _ h; simp [foldE] at h
    | cons y l ih =>
      intro all hnd h
      simp only [List.map_cons, List.nodup_cons] at hnd
      simp only [foldE] at h
      by_cases hc : all.contains y.1 = true
      · simp only [hc, if_true, Except.error.injEq] at h
        exact ⟨h.symm, y.1, by simp, hc⟩
      · have hc' : all.contains y.1 = false := by simpa using hc
        simp only [hc', Bool.false_eq_true, if_false] at h
        obtain ⟨he, x, hx, hx'⟩ := ih _ hnd.2 h
        refine ⟨he, x, by simp at hx ⊢; exact Or.inr hx, ?_⟩
        have hne : x ≠ y.1 := fun h => hnd.1 (h ▸ hx)
        simpa [hne] using hx'
  obtain ⟨he, x, hx, hx'⟩ := key _ _ new.toList_nodupKeys h
  refine ⟨he, x, ?_, hx'⟩
  obtain ⟨⟨k, v⟩, hm, rfl⟩ := List.mem_map.1 hx
  exact BMap.contains_iff.2 ⟨v, BMap.mem_toList.1 hm⟩

/-- Closing a round with a new id fails only if a party has an error already. -/
theorem update_error {s : Session P} {a : Accum P} {e : LErr} (h : s.updatedTranscript a = .error e)
    (hf : e = .transcriptProvable ∨ e = .transcriptUnprovable) :
    ∃ x, s.transcript.isBanned x = true ∧ a.isBanned x = true := by
  unfold Session.updatedTranscript Transcript.update at h
  have no : ∀ e' : LErr, e' ≠ .transcriptProvable → e' ≠ .transcriptUnprovable → (Except.error e' : Except LErr (Transcript sp)) = .error e → False := by
    intro e' h1 h2 h3
    simp only [Except.error.injEq] at h3
    subst h3
    rcases hf with hf | hf
    · exact h1 hf
    · exact h2 hf
  split at h
  · exact (no _ (by simp) (by simp) h).elim
  · split at h
    · exact (no _ (by simp) (by simp) h).elim
    · split at h
      · exact (no _ (by simp) (by simp) h).elim
      · split at h
        · rename_i h1
          obtain ⟨-, x, h2, h3⟩ := mergeErrors_error h1
          exact ⟨x, by simp [Transcript.isBanned, h3], by simp [Accum.isBanned, h2]⟩
        · split at h
          · rename_i h1
            obtain ⟨-, x, h2, h3⟩ := mergeErrors_error h1
            exact ⟨x, by simp [Transcript.isBanned, h3], by simp [Accum.isBanned, h2]⟩
          · split at h
            · exact (no _ (by simp) (by simp) h).elim
            · simp at h

theorem visits_complete (hstrict : EchoStrict P) {s₀ s : Session P} {trail : List (Session P × Accum P)}
    {cached : List (VerifiedMessage sp)} {e : EchoRd P} (hp : Proper s₀) (hm : ∃ r, s₀.round = .main r)
    (hv : Visits s₀ trail s cached) (he : s.round = .echo e) : e.Complete := by
  have hi := visits_einv hp hm hv he
  intro k hk
  by_cases hme : k = s.me
  · subst hme
    obtain ⟨p, rng, h1, -⟩ := hi.own
    exact ⟨p, h1⟩
  · refine hi.complete hstrict k hme ?_
    rcases hi.info with ⟨t, -, hinfo⟩ | ⟨-, hinfo⟩
    · rw [hinfo] at hk
      exact hk
    · rw [hinfo] at hk
      simpa [hme] using hk

theorem visits_benign (env : sp.EnvOk) {I : P.Rd → Prop} (lo : LocalOk P I) (hstrict : EchoStrict P) {s₀ s : Session P}
    {trail : List (Session P × Accum P)} {cached : List (VerifiedMessage sp)} (hp : Proper s₀)
    (hm : ∃ r, s₀.round = .main r) (hv : Visits s₀ trail s cached) (hI : ∀ r, s.round = .main r → I r)
    (has : Assembles s) : Benign s := by
  refine ⟨?_, has⟩
  intro x m e hx h
  cases hr : s.round with
  | main r =>
    rw [hr] at h
    simp only [SRound.receive] at h
    cases hrc : P.receive r x m with
    | ok v => simp [hrc] at h
    | error e' =>
      simp only [hrc, Except.error.injEq] at h
      subst h
      refine lo.receive _ _ _ _ (hI r hr) ?_ hrc
      rw [← (roundId_main (visits_inv hp hm hv).proper hr).2]
      exact hx
  | echo er =>
    rw [hr] at h
    simp only [SRound.receive] at h
    cases hrc : er.receive x m with
    | ok v => simp [hrc] at h
    | error e' =>
      simp only [hrc, Except.error.injEq] at h
      subst h
      exact C20_no_local_error env.serMeta er (visits_complete hstrict hp hm hv hr) x m e hrc

end Manul
