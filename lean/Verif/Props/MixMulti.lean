import Verif.Spec.MixMulti
import Verif.Props.MixOpen
import Verif.Props.Multi

/-!
# C93: sessions executed at the same time with either driver do not interfere
-/

namespace Manul

variable {sp : SP} {P : Proto sp} {K : Type} [DecidableEq K] {S : Sessions sp K} {H : sp.Id → Prop} {drive : K → sp.Id → Bool}

/-- The steps of a session are those of an open network. -/
theorem mixOpenStep_iff {g : Group P} {par : sp.Id → Bool} {n n' : MixNet P} :
    MixOpenStep g H par n n' ↔ MixStepIf (fun m => Unforged H g.sid n.wire m.direct m.echo m.normal) g H par n n' := by
  refine ⟨?_, ?_⟩
  · intro h
    cases h with
    | startSeq rng rng' h1 h2 h3 => exact .startSeq rng rng' h1 h2 h3
    | actSeq h1 h2 h3 => exact .actSeq h1 h2 h3
    | startFails rng rng' h1 h2 h3 h4 h5 h6 => exact .startFails rng rng' h1 h2 h3 h4 h5 h6
    | enterFails rng rng' h1 h2 h3 h4 h5 => exact .enterFails rng rng' h1 h2 h3 h4 h5
    | startPar rng rng' h1 h2 h3 => exact .startPar rng rng' h1 h2 h3
    | actPar h1 h2 h3 h4 => exact .actPar h1 h2 h3 h4
  · intro h
    cases h with
    | startSeq rng rng' h1 h2 h3 => exact .startSeq rng rng' h1 h2 h3
    | actSeq h1 h2 h3 => exact .actSeq h1 h2 h3
    | startFails rng rng' h1 h2 h3 h4 h5 h6 => exact .startFails rng rng' h1 h2 h3 h4 h5 h6
    | enterFails rng rng' h1 h2 h3 h4 h5 => exact .enterFails rng rng' h1 h2 h3 h4 h5
    | startPar rng rng' h1 h2 h3 => exact .startPar rng rng' h1 h2 h3
    | actPar h1 h2 h3 h4 => exact .actPar h1 h2 h3 h4

theorem MixStepIf.mono {may may' : Message sp → Prop} {g : Group P} {par : sp.Id → Bool} {n n' : MixNet P}
    (h : MixStepIf may g H par n n') (hm : ∀ m, may m → may' m) : MixStepIf may' g H par n n' := by
  cases h with
  | startSeq rng rng' h1 h2 h3 => exact .startSeq rng rng' h1 h2 h3
  | actSeq h1 h2 h3 => exact .actSeq h1 (fun y m he => hm m (h2 y m he)) h3
  | startFails rng rng' h1 h2 h3 h4 h5 h6 => exact .startFails rng rng' h1 h2 h3 h4 h5 h6
  | enterFails rng rng' h1 h2 h3 h4 h5 => exact .enterFails rng rng' h1 h2 h3 h4 h5
  | startPar rng rng' h1 h2 h3 => exact .startPar rng rng' h1 h2 h3
  | actPar h1 h2 h3 h4 => exact .actPar h1 (fun y m he => hm m (h2 y m he)) h3 h4

/-- What has been sent in a session has its id in all parts. -/
theorem mixWire_sid {g : Group P} {par : sp.Id → Bool} {n : MixNet P} (h : MixOpenSteps g H par MixNet.init n) {q : Packet sp}
    (hq : q ∈ n.wire) :
    q.message.direct.metadata.sessionId = g.sid ∧ q.message.echo.metadata.sessionId = g.sid ∧
      q.message.normal.metadata.sessionId = g.sid := by
  obtain ⟨V, -, hi⟩ := (POpenInv.init (MixVisitedBy g par) g H).steps h.looseInit
  obtain ⟨s, -, -, -, -, -, -, h1, h2, h3⟩ := hi.own (q := q) hq
  rw [h1, h2, h3]
  exact ⟨rfl, rfl, rfl⟩

/-- **C93.**  In executions of any number of sessions with different ids, by parties using the same keys in all of them and either
driver in each, every session by itself goes through an execution of the network in which it is the only one: whatever the
adversary does with what is sent in the others it could have done without them. -/
theorem C93_independent (hd : S.Distinct) {n : MixNets S} (h : MixMultiReach S H drive n) (k : K) :
    MixOpenSteps (S.group k) H (drive k) MixNet.init (n k) := by
  induction h generalizing k with
  | init => exact .refl
  | @step n n' _ hs ih =>
    cases hs with
    | step k' hs' =>
      by_cases hk : k = k'
      · subst hk
        rw [Function.update_self]
        refine (ih k).step (mixOpenStep_iff.2 (hs'.mono ?_))
        intro m hm
        refine ⟨?_, ?_, ?_⟩
        · intro x hx hv he
          obtain ⟨k', q, hq, h1, h2, h3⟩ := hm.direct x k hx hv he
          obtain rfl := hd k' k (by rw [← he, ← h2]; exact (mixWire_sid (ih k') hq).1.symm)
          exact ⟨q, hq, h1, h2, h3⟩
        · intro x hx hv he
          obtain ⟨k', q, hq, h1, h2, h3⟩ := hm.echo x k hx hv he
          obtain rfl := hd k' k (by rw [← he, ← h2]; exact (mixWire_sid (ih k') hq).2.1.symm)
          exact ⟨q, hq, h1, h2, h3⟩
        · intro x hx hv he
          obtain ⟨k', q, hq, h1, h2, h3⟩ := hm.normal x k hx hv he
          obtain rfl := hd k' k (by rw [← he, ← h2]; exact (mixWire_sid (ih k') hq).2.2.symm)
          exact ⟨q, hq, h1, h2, h3⟩
      · rw [Function.update_of_ne hk]
        exact ih k

/-- **C93.**  So what a session has accepted from a party following the protocol, that party has sent in the same round of the same
session. -/
theorem C93_integrity (hd : S.Distinct) {n : MixNets S} (h : MixMultiReach S H drive n) {k : K} {i x : sp.Id}
    {st : MixState (S.proto k)} {s : Session (S.proto k)} {a : Accum (S.proto k)} (hn : (n k).node i = some st)
    (hr : st.inRound = some (s, a)) (hx : H x) {v : Option (S.proto k).Payload} (hv : a.payloads.get? x = some v) :
    ∃ m, MixSentIn (S.group k) (drive k) (n k).wire x s.transition.id m ∧ s.round.receive x m = .ok v :=
  C92_integrity (C93_independent hd h k) hn hr hx hv

/-- **C93.**  Two parties that are in the same echo round of a session and can finalize hold the same broadcasts, whatever they
receive in other sessions. -/
theorem C93_agreement (hd : S.Distinct) {n : MixNets S} (h : MixMultiReach S H drive n) {k : K} (rt : sp.EchoRoundTrip)
    (hmi : MainIds (S.proto k)) (hkey : ∀ i, H i → sp.verifyingKey ((S.group k).signer i) = i) {i j : sp.Id} (hij : i ≠ j)
    {st st' : MixState (S.proto k)} {s s' : Session (S.proto k)} {a a' : Accum (S.proto k)} {e e' : EchoRd (S.proto k)}
    (hn : (n k).node i = some st) (hr : st.inRound = some (s, a)) (hn' : (n k).node j = some st')
    (hr' : st'.inRound = some (s', a')) (he : s.round = .echo e) (he' : s'.round = .echo e')
    (hid : s.transition.id = s'.transition.id) (hy : a.canFinalize = .yes) (hy' : a'.canFinalize = .yes)
    (hx : s.comm.expecting.contains j = true) (hx' : s'.comm.expecting.contains i = true) (nocoll : NoCollision e e') (y : sp.Id)
    (hk : e.info.expectedEchos.contains y = true) (hk' : e'.info.expectedEchos.contains y = true) : SameBroadcast e e' y :=
  C92_agreement rt hmi hkey (C93_independent hd h k) .refl hij hn hr hn' hr' he he' hid hy hy' hx hx' nocoll y hk hk'

/-- **C93.**  An accusation of a party following the protocol rests on what it has done in the same session. -/
theorem C93_accused (hd : S.Distinct) {n : MixNets S} (h : MixMultiReach S H drive n) {k : K} (rt : sp.EchoRoundTrip)
    (mt : sp.MetaTotal) (hp : EchoStrict (S.proto k) ∧ MainIds (S.proto k) ∧ Acyclic (S.proto k) ∧ NoEchoErr (S.proto k))
    (hkey : ∀ i, H i → sp.verifyingKey ((S.group k).signer i) = i) {i x : sp.Id} (hi : H i) {st : MixState (S.proto k)}
    {rep : Report (S.proto k)} (hn : (n k).node i = some st) (hr : st.report = some (.ok rep)) {ev : Evidence sp}
    (hev : rep.provable.get? x = some ev) (hg : H ev.guilty) :
    (x = ev.guilty ∧ MixRefused (S.group k) (drive k) i x) ∨
      (¬ H x ∧ ∃ s w, MixMisquoted (S.group k) (drive k) ev.guilty s w ev) :=
  C92_accused rt mt hp.1 hp.2.1 hp.2.2.1 hp.2.2.2 hkey (C93_independent hd h k) hi hn hr hev hg

/-- **C93.**  Two running parties that always expect messages from each other in a session are at most one round apart in it. -/
theorem C93_rounds (hd : S.Distinct) {n : MixNets S} (h : MixMultiReach S H drive n) {k : K} (hmi : MainIds (S.proto k))
    (hac : Acyclic (S.proto k)) {i j : sp.Id} (hi : H i) (hj : H j) (hij : MixAlwaysExpects (S.group k) (drive k) i j)
    (hji : MixAlwaysExpects (S.group k) (drive k) j i) {st st' : MixState (S.proto k)} {s s' : Session (S.proto k)}
    {a a' : Accum (S.proto k)} (hn : (n k).node i = some st) (hr : st.inRound = some (s, a)) (hn' : (n k).node j = some st')
    (hr' : st'.inRound = some (s', a')) :
    (∀ id, Passed s id ↔ Passed s' id) ∨ (∀ id, Passed s id ↔ id = s'.transition.id ∨ Passed s' id) ∨
      ∀ id, Passed s' id ↔ id = s.transition.id ∨ Passed s id :=
  C92_rounds hmi hac (C93_independent hd h k) hi hj hij hji hn hr hn' hr'

/-- **C93.**  Sessions executed with `run_session` are a special case: if nobody uses `par_run_session` in any session, these are the
executions of C76. -/
theorem C93_sequential {n : MixNets S} (hdr : ∀ k i, drive k i = false) :
    MixMultiReach S H drive n ↔ ∃ n' : Nets S, n = (fun k => Net.mix (n' k)) ∧ MultiReach S H n' := by
  have hun : ∀ (m : Nets S) (msg : Message sp), MixUnforgedAll S H (fun k => Net.mix (m k)) msg ↔ UnforgedAll S H m msg :=
    fun m msg => ⟨fun h => ⟨h.direct, h.echo, h.normal⟩, fun h => ⟨h.direct, h.echo, h.normal⟩⟩
  have hup : ∀ (m : Nets S) (k : K) (n' : Net (S.proto k)),
      (fun k' => Net.mix (Function.update m k n' k')) = Function.update (fun k => Net.mix (m k)) k (Net.mix n') := by
    intro m k n'
    funext k'
    by_cases hk : k' = k
    · subst hk
      simp
    · simp [Function.update_of_ne hk]
  constructor
  · intro h
    induction h with
    | init => exact ⟨fun _ => Net.init, rfl, .init⟩
    | step _ hs ih =>
      obtain ⟨m, rfl, hm⟩ := ih
      cases hs with
      | step k hs =>
        have key : ∀ {i : sp.Id} {st : RunState (S.proto k)}, (Net.mix (m k)).node i = some (.seq st) → (m k).node i = some st := by
          intro i st hi
          simp only [Net.mix, Option.map_eq_some_iff, MixState.seq.injEq] at hi
          obtain ⟨st', h1, rfl⟩ := hi
          exact h1
        have keyn : ∀ {i : sp.Id}, (Net.mix (m k)).node i = none → (m k).node i = none := by
          intro i hi
          simpa [Net.mix] using hi
        have go : ∀ {n' : Net (S.proto k)}, StepIf (UnforgedAll S H m) (S.group k) H (m k) n' →
            ∃ m' : Nets S, Function.update (fun k => Net.mix (m k)) k (Net.mix n') = (fun k => Net.mix (m' k)) ∧
              MultiReach S H m' :=
          fun {n'} hn' => ⟨Function.update m k n', (hup m k n').symm, hm.step (.step k hn')⟩
        cases hs with
        | startSeq rng rng' hi _ hn =>
          rw [← Net.mix_put]
          exact go (.start rng rng' hi (keyn hn))
        | actSeq hn hu hs =>
          rw [← Net.mix_put]
          exact go (.act (key hn) (fun y msg he => (hun m msg).1 (hu y msg he)) hs)
        | startFails rng rng' hi _ hn h1 h2 h3 =>
          rw [← Net.mix_put]
          exact go (.startFails rng rng' hi (keyn hn) h1 h2 h3)
        | enterFails rng rng' hn h1 h2 h3 h4 =>
          rw [← Net.mix_put]
          exact go (.enterFails rng rng' (key hn) h1 h2 h3 h4)
        | startPar _ _ _ hp _ => simp [hdr] at hp
        | actPar hn _ _ _ =>
          simp only [Net.mix, Option.map_eq_some_iff] at hn
          obtain ⟨st', -, h1⟩ := hn
          simp at h1
  · rintro ⟨m, rfl, h⟩
    induction h with
    | init => exact .init
    | @step m m' _ hs ih =>
      cases hs with
      | step k hs =>
        rw [hup]
        refine ih.step (.step k ?_)
        cases hs with
        | start rng rng' hi hn =>
          rw [Net.mix_put]
          exact .startSeq rng rng' hi (hdr _ _) (by simp [Net.mix, hn])
        | act hn hu hs =>
          rw [Net.mix_put]
          exact .actSeq (by simp [Net.mix, hn]) (fun y msg he => (hun m msg).2 (hu y msg he)) hs
        | startFails rng rng' hi hn h1 h2 h3 =>
          rw [Net.mix_put]
          exact .startFails rng rng' hi (hdr _ _) (by simp [Net.mix, hn]) h1 h2 h3
        | enterFails rng rng' hn h1 h2 h3 h4 =>
          rw [Net.mix_put]
          exact .enterFails rng rng' (by simp [Net.mix, hn]) h1 h2 h3 h4

/-! ## Executing schedules of two sessions -/

/-- A schedule: what happens in which session; a message forwarded may come from the other one. -/
inductive MixMultiAct (sp : SP) where
  | own (k : Bool) (a : POpenAct sp)
  /-- give the `j`-th packet ever sent in session `k'` to party `i` in session `k`, in the name of `y` -/
  | cross (k' : Bool) (j : Nat) (k : Bool) (i y : sp.Id)

/-- What has been sent. -/
def mixSentInBoth {S : Sessions sp Bool} (n : MixNets S) : List (Packet sp) := (n false).wire ++ (n true).wire

/-- Party `i` is given a message in session `k`; nothing happens if it is a forgery. -/
def mixMultiGive (S : Sessions sp Bool) (H : List sp.Id) (n : MixNets S) (k : Bool) (i y : sp.Id) (m : Message sp) : MixNets S :=
  if unforged H (S.group false).sid (mixSentInBoth n) m = true ∧ unforged H (S.group true).sid (mixSentInBoth n) m = true then
    Function.update n k (mixOpenAct (n k) i (some (.deliver y m)) (.op (.deliver y m)))
  else n

/-- Executing a schedule; steps that are not possible are left out. -/
def mixMultiRun (rng : sp.Rng) (S : Sessions sp Bool) (H : List sp.Id) (drive : Bool → sp.Id → Bool) :
    List (MixMultiAct sp) → MixNets S → MixNets S
  | [], n => n
  | .cross k' j k i y :: l, n =>
    mixMultiRun rng S H drive l <| match (n k').wire[j]? with
      | none => n
      | some p => mixMultiGive S H n k i y p.message
  | .own k a :: l, n =>
    mixMultiRun rng S H drive l <| match a with
      | .start i =>
        if decide (i ∈ H) = true ∧ ((n k).node i).isNone = true then
          match drive k i with
          | true => Function.update n k ((n k).put i (.par ((S.group k).startPar i rng rng)) [])
          | false => Function.update n k
              ((n k).put i (.seq ((S.group k).startNode i rng rng).1) ((S.group k).startNode i rng rng).2)
        else n
      | .tick i => Function.update n k (mixOpenAct (n k) i (some (.tick rng)) (.tick rng))
      | .cancel i => Function.update n k (mixOpenAct (n k) i (some .cancel) .cancel)
      | .complete i j => Function.update n k (mixOpenAct (n k) i none (.op (.complete j)))
      | .send i j => Function.update n k (mixOpenAct (n k) i none (.op (.send j)))
      | .forward j i y =>
        match (n k).wire[j]? with
        | none => n
        | some p => mixMultiGive S H n k i y p.message
      | .inject i y m => mixMultiGive S H n k i y m

theorem mixUnforgedAll_of {S : Sessions sp Bool} {H : List sp.Id} {n : MixNets S} {m : Message sp}
    (h : ∀ k, unforged H (S.group k).sid (mixSentInBoth n) m = true) : MixUnforgedAll S (fun i => i ∈ H) n m := by
  have find : ∀ {Q : Packet sp → Prop}, (∃ q ∈ mixSentInBoth n, Q q) → ∃ k', ∃ q ∈ (n k').wire, Q q := by
    rintro Q ⟨q, hq, h⟩
    rcases List.mem_append.1 hq with hq | hq
    · exact ⟨false, q, hq, h⟩
    · exact ⟨true, q, hq, h⟩
  exact ⟨fun x k hx hv he => find ((unforged_spec (h k)).direct x hx hv he),
    fun x k hx hv he => find ((unforged_spec (h k)).echo x hx hv he),
    fun x k hx hv he => find ((unforged_spec (h k)).normal x hx hv he)⟩

theorem mixMultiAct_reach {S : Sessions sp Bool} {H : List sp.Id} {drive : Bool → sp.Id → Bool} {n : MixNets S}
    (h : MixMultiReach S (fun i => i ∈ H) drive n) (k : Bool) (i : sp.Id) (ev : Option (Event sp)) (pev : ParEvent sp)
    (hu : ∀ y m, ev = some (.deliver y m) → MixUnforgedAll S (fun i => i ∈ H) n m)
    (hup : ∀ y m, pev = .op (.deliver y m) → MixUnforgedAll S (fun i => i ∈ H) n m) :
    MixMultiReach S (fun i => i ∈ H) drive (Function.update n k (mixOpenAct (n k) i ev pev)) := by
  unfold mixOpenAct
  split
  · rename_i st hn
    split
    · simpa using h
    · split
      · simpa using h
      · rename_i ev st' out hs
        exact h.step (.step k (.actSeq hn (fun y m he => hu y m (by rw [he])) hs))
  · rename_i s st hn
    split
    · simpa using h
    · rename_i st' hs
      exact h.step (.step k (.actPar hn hup hs fun m hm => parOut_mem hm))
  · simpa using h

theorem mixMultiGive_reach {S : Sessions sp Bool} {H : List sp.Id} {drive : Bool → sp.Id → Bool} {n : MixNets S}
    (h : MixMultiReach S (fun i => i ∈ H) drive n) (k : Bool) (i y : sp.Id) (m : Message sp) :
    MixMultiReach S (fun i => i ∈ H) drive (mixMultiGive S H n k i y m) := by
  unfold mixMultiGive
  split
  · rename_i hu
    have hm : MixUnforgedAll S (fun i => i ∈ H) n m := by
      refine mixUnforgedAll_of ?_
      intro k
      cases k
      · exact hu.1
      · exact hu.2
    refine mixMultiAct_reach h k i _ _ ?_ ?_
    · intro y' m' he
      cases he
      exact hm
    · intro y' m' he
      cases he
      exact hm
  · exact h

theorem mixMultiRun_reach (rng : sp.Rng) {S : Sessions sp Bool} {H : List sp.Id} {drive : Bool → sp.Id → Bool}
    (l : List (MixMultiAct sp)) {n : MixNets S} (h : MixMultiReach S (fun i => i ∈ H) drive n) :
    MixMultiReach S (fun i => i ∈ H) drive (mixMultiRun rng S H drive l n) := by
  induction l generalizing n with
  | nil => exact h
  | cons a l ih =>
    cases a with
    | cross k' j k i y =>
      simp only [mixMultiRun]
      refine ih ?_
      split
      · exact h
      · exact mixMultiGive_reach h k i y _
    | own k a =>
      simp only [mixMultiRun]
      refine ih ?_
      split
      · rename_i i
        split
        · rename_i hc
          split
          · rename_i hp
            exact h.step (.step k (.startPar rng rng (by simpa using hc.1) hp (by simpa using hc.2)))
          · rename_i hp
            exact h.step (.step k (.startSeq rng rng (by simpa using hc.1) hp (by simpa using hc.2)))
        · exact h
      · exact mixMultiAct_reach h k _ _ _ (by simp) (by simp)
      · exact mixMultiAct_reach h k _ _ _ (by simp) (by simp)
      · exact mixMultiAct_reach h k _ _ _ (by simp) (by simp)
      · exact mixMultiAct_reach h k _ _ _ (by simp) (by simp)
      · split
        · exact h
        · exact mixMultiGive_reach h k _ _ _
      · exact mixMultiGive_reach h k _ _ _

/-- Party 1 uses `run_session` in the first session and `par_run_session` in the second one, party 2 the other way round. -/
def crossDrive (k : Bool) (i : U8) : Bool := xor k (decide (i = 2))

/-- Party 2 starts in one session, party 1 in both, and what party 2 sends party 1 in the first one is given to party 1 in both. -/
def mixReplay : List (MixMultiAct toy) :=
  [.own false (.start (2 : U8)), .own false (.send (2 : U8) 0), .own false (.start (1 : U8)), .own true (.start (1 : U8)),
    .own false (.forward 0 (1 : U8) (2 : U8)), .cross false 0 true (1 : U8) (2 : U8), .own true (.complete (1 : U8) 0)]

/-- The party has a payload of the other one. -/
def mixHasPayload {P : Proto toy} (n : MixNet P) (i x : U8) : Bool :=
  match n.round i with
  | some (_, a) => a.payloads.contains x
  | none => false

/-- The party has recorded an error of the other one. -/
def mixHasBanned {P : Proto toy} (n : MixNet P) (i x : U8) : Bool :=
  match n.round i with
  | some (_, a) => a.isBanned x
  | none => false

/-- **C93.**  The ids have to be different: with the same id in two sessions, a session accepts as a message of party 2 one it has sent
in the other session, using the other driver, although it has not even started in this one. -/
theorem C93_distinct_needed : ∃ n : MixNets (twoSessions [9] [9]),
    MixMultiReach (twoSessions [9] [9]) (fun i : U8 => i ∈ ([1, 2] : List U8)) crossDrive n ∧ (n true).node (2 : U8) = none ∧
      ∃ st s a v, (n true).node (1 : U8) = some st ∧ st.inRound = some (s, a) ∧ a.payloads.get? (2 : U8) = some v := by
  have h : (mixHasPayload (mixMultiRun (sp := toy) (0 : Nat) (twoSessions [9] [9]) ([1, 2] : List U8) crossDrive mixReplay
      (fun _ => MixNet.init) true) 1 2 &&
      ((mixMultiRun (sp := toy) (0 : Nat) (twoSessions [9] [9]) ([1, 2] : List U8) crossDrive mixReplay
        (fun _ => MixNet.init) true).node (2 : U8)).isNone) = true := by
    decide +kernel
  have hr := mixMultiRun_reach (sp := toy) (0 : Nat) (S := twoSessions [9] [9]) (H := ([1, 2] : List U8)) (drive := crossDrive)
    mixReplay .init
  generalize mixMultiRun (sp := toy) (0 : Nat) (twoSessions [9] [9]) ([1, 2] : List U8) crossDrive mixReplay
    (fun _ => MixNet.init) = n at h hr
  rw [Bool.and_eq_true] at h
  refine ⟨n, hr, by simpa using h.2, ?_⟩
  have h1 := h.1
  unfold mixHasPayload at h1
  split at h1
  · rename_i s a hn
    obtain ⟨st, hn, hs⟩ := mixRound_eq hn
    obtain ⟨v, hv⟩ := BMap.contains_iff.1 h1
    exact ⟨st, s, a, v, hn, hs, hv⟩
  · cases h1

/-! ## Examples -/

/-- With different ids the first session accepts the message and the second one does not. -/
example : (twoSessions [9] [8]).Distinct ∧ ∃ n : MixNets (twoSessions [9] [8]),
    MixMultiReach (twoSessions [9] [8]) (fun i : U8 => i ∈ ([1, 2] : List U8)) crossDrive n ∧
      mixHasPayload (n false) 1 2 = true ∧ mixHasPayload (n true) 1 2 = false ∧ mixHasBanned (n true) 1 2 = true := by
  refine ⟨?_, _, mixMultiRun_reach (sp := toy) (0 : Nat) (H := ([1, 2] : List U8)) mixReplay .init, ?_, ?_, ?_⟩
  · intro k k' h
    cases k <;> cases k' <;> first | rfl | (exact absurd h (by decide))
  · decide +kernel
  · decide +kernel
  · decide +kernel

/-- The hypotheses of `C93_integrity`, `C93_agreement` and `C93_rounds` can be met: the parties 1 and 2 are ready to finalize an echo
round of one session while another one is under way. -/
example : ∃ (n : MixNets (twoSessions [9] [8])) (m m' : MixState (demo true 2).wrap) (s s' : Session (demo true 2).wrap)
    (a a' : Accum (demo true 2).wrap) (e e' : EchoRd (demo true 2).wrap),
    MixMultiReach (twoSessions [9] [8]) (fun i : U8 => i ∈ ([1, 2] : List U8)) crossDrive n ∧
      (∃ st, (n true).node (1 : U8) = some st) ∧
      (n false).node (1 : U8) = some m ∧ m.inRound = some (s, a) ∧ (n false).node (2 : U8) = some m' ∧
      m'.inRound = some (s', a') ∧ s.round = .echo e ∧ s'.round = .echo e' ∧ s.transition.id = s'.transition.id ∧
      a.canFinalize = .yes ∧ a'.canFinalize = .yes ∧ s.comm.expecting.contains (2 : U8) = true ∧
      s'.comm.expecting.contains (1 : U8) = true ∧ NoCollision e e' ∧ e.info.expectedEchos.contains (3 : U8) = true ∧
      e'.info.expectedEchos.contains (3 : U8) = true := by
  have h : (mixReady (P := (demo true 2).wrap) (mixMultiRun (sp := toy) (0 : Nat) (twoSessions [9] [8]) ([1, 2] : List U8) crossDrive
      (.own true (.start (1 : U8)) :: (mixOpenBegin 3 ++ mixOpenEcho 1 ++ mixOpenLater.tail).map (.own false))
      (fun _ => MixNet.init) false)
      (mixMultiRun (sp := toy) (0 : Nat) (twoSessions [9] [8]) ([1, 2] : List U8) crossDrive
      (.own true (.start (1 : U8)) :: (mixOpenBegin 3 ++ mixOpenEcho 1 ++ mixOpenLater.tail).map (.own false))
      (fun _ => MixNet.init) false) &&
      ((mixMultiRun (sp := toy) (0 : Nat) (twoSessions [9] [8]) ([1, 2] : List U8) crossDrive
      (.own true (.start (1 : U8)) :: (mixOpenBegin 3 ++ mixOpenEcho 1 ++ mixOpenLater.tail).map (.own false))
      (fun _ => MixNet.init) true).node (1 : U8)).isSome) = true := by
    decide +kernel
  have hr := mixMultiRun_reach (sp := toy) (0 : Nat) (S := twoSessions [9] [8]) (H := ([1, 2] : List U8)) (drive := crossDrive)
    (.own true (.start (1 : U8)) :: (mixOpenBegin 3 ++ mixOpenEcho 1 ++ mixOpenLater.tail).map (.own false)) .init
  generalize mixMultiRun (sp := toy) (0 : Nat) (twoSessions [9] [8]) ([1, 2] : List U8) crossDrive
      (.own true (.start (1 : U8)) :: (mixOpenBegin 3 ++ mixOpenEcho 1 ++ mixOpenLater.tail).map (.own false))
      (fun _ => MixNet.init) = n at h hr
  rw [Bool.and_eq_true] at h
  obtain ⟨h, h'⟩ := h
  unfold mixReady at h
  split at h
  · rename_i s a s' a' h1 h2
    obtain ⟨m, h1, h1'⟩ := mixRound_eq h1
    obtain ⟨m', h2, h2'⟩ := mixRound_eq h2
    split at h
    · rename_i e e' h3 h4
      simp only [Bool.and_eq_true, decide_eq_true_eq] at h
      obtain ⟨⟨⟨⟨⟨⟨⟨⟨k1, k2⟩, k3⟩, k4⟩, k5⟩, k6⟩, k7⟩, k8⟩, k9⟩ := h
      exact ⟨n, m, m', s, s', a, a', e, e', hr, Option.isSome_iff_exists.1 h', h1, h1', h2, h2', h3, h4, k1, k2, k3, k4, k5,
        fun k p p' _ _ hc => toy_hashInjective _ _ hc, k6, k7⟩
    · exact (Bool.false_ne_true h).elim
  · exact (Bool.false_ne_true h).elim

/-- The hypotheses of `C93_accused` can be met: two sessions are under way, and in one of them party 3 has misquoted party 2. -/
example : ∃ (n : MixNets (twoSessions [9] [8])) (m : MixState (demo true 2).wrap) (rep : Report (demo true 2).wrap)
    (ev : Evidence toy),
    MixMultiReach (twoSessions [9] [8]) (fun i : U8 => i ∈ ([1, 2] : List U8)) crossDrive n ∧
      (∃ st, (n true).node (1 : U8) = some st) ∧ (n false).node (1 : U8) = some m ∧ m.report = some (.ok rep) ∧
      rep.provable.get? (3 : U8) = some ev ∧ ev.guilty = (2 : U8) := by
  have h : (mixMisquoting (P := (demo true 2).wrap) (mixMultiRun (sp := toy) (0 : Nat) (twoSessions [9] [8]) ([1, 2] : List U8)
      crossDrive (.own true (.start (1 : U8)) ::
        (mixOpenBegin 3 ++ popenDemo 3 1 ⟨1, [], true⟩ none none (some framingPack) ++ [POpenAct.tick (1 : U8)]).map (.own false))
      (fun _ => MixNet.init) false) &&
      ((mixMultiRun (sp := toy) (0 : Nat) (twoSessions [9] [8]) ([1, 2] : List U8)
      crossDrive (.own true (.start (1 : U8)) ::
        (mixOpenBegin 3 ++ popenDemo 3 1 ⟨1, [], true⟩ none none (some framingPack) ++ [POpenAct.tick (1 : U8)]).map (.own false))
      (fun _ => MixNet.init) true).node (1 : U8)).isSome) = true := by
    decide +kernel
  have hr := mixMultiRun_reach (sp := toy) (0 : Nat) (S := twoSessions [9] [8]) (H := ([1, 2] : List U8)) (drive := crossDrive)
    (.own true (.start (1 : U8)) ::
        (mixOpenBegin 3 ++ popenDemo 3 1 ⟨1, [], true⟩ none none (some framingPack) ++ [POpenAct.tick (1 : U8)]).map (.own false)) .init
  generalize mixMultiRun (sp := toy) (0 : Nat) (twoSessions [9] [8]) ([1, 2] : List U8)
      crossDrive (.own true (.start (1 : U8)) ::
        (mixOpenBegin 3 ++ popenDemo 3 1 ⟨1, [], true⟩ none none (some framingPack) ++ [POpenAct.tick (1 : U8)]).map (.own false))
      (fun _ => MixNet.init) = n at h hr
  rw [Bool.and_eq_true] at h
  obtain ⟨h, h'⟩ := h
  unfold mixMisquoting at h
  split at h
  · rename_i rep q h1 h2
    split at h
    · rename_i g g' w x h3
      simp only [Bool.and_eq_true] at h
      exact ⟨n, _, rep, _, hr, Option.isSome_iff_exists.1 h', h1, rfl, h3, isTwo_spec h.1.1.1.2⟩
    · exact (Bool.false_ne_true h).elim
  · exact (Bool.false_ne_true h).elim

end Manul
