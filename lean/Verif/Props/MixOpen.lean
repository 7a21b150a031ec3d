import Verif.Lemmas.MixOpen
import Verif.Props.LockStep
import Verif.Props.ParLockStep

/-!
# C92: parties using either driver in a network controlled by an adversary

C56, C57, C72, C73 and C81 are about parties using `run_session`, C82, C83 and C84 about parties using `par_run_session`.  Here every
party uses the driver it likes.  An adversary controls everything but the parties in `H`; those with `par i` use `par_run_session`.
-/

namespace Manul

variable {sp : SP} {P : Proto sp} {g : Group P} {H : sp.Id → Prop} {par : sp.Id → Bool}

/-- **C92.**  Whatever a party following the protocol has accepted from another one, the other one has sent in the same round of the
same session. -/
theorem C92_integrity {n : MixNet P} (h : MixOpenSteps g H par MixNet.init n) {i x : sp.Id} {st : MixState P} {s : Session P}
    {a : Accum P} (hn : n.node i = some st) (hr : st.inRound = some (s, a)) (hx : H x) {v : Option P.Payload}
    (hv : a.payloads.get? x = some v) :
    ∃ m, MixSentIn g par n.wire x s.transition.id m ∧ s.round.receive x m = .ok v := by
  obtain ⟨pst, h1, rfl⟩ := inRound_embed hn hr
  exact Loose.integrity h.looseInit h1 hx hv

/-- **C92.**  When a round is finalized, possibly after its echo round, the payloads of parties following the protocol are made of
what they have sent in this round. -/
theorem C92_finalizing {n : MixNet P} (h : MixOpenSteps g H par MixNet.init n) {i x : sp.Id} {st : MixState P} {s : Session P}
    {a : Accum P} (hn : n.node i = some st) (hr : st.inRound = some (s, a)) (hx : H x) {v : Option P.Payload}
    (hv : (finalizing s a).2.1.get? x = some v) :
    ∃ w m, v = some w ∧ MixSentIn g par n.wire x (P.transition (finalizing s a).1).id m ∧
      P.receive (finalizing s a).1 x m = .ok w := by
  obtain ⟨pst, h1, rfl⟩ := inRound_embed hn hr
  exact Loose.finalized h.looseInit h1 hx hv

/-- **C92.**  Evidence against a party following the protocol in the report of another one is based on what the party has sent. -/
theorem C92_report {n : MixNet P} (h : MixOpenSteps g H par MixNet.init n) {i x : sp.Id} {st : MixState P} {rep : Report P}
    (hn : n.node i = some st) (hr : st.report = some (.ok rep)) (hx : H x) {ev : Evidence sp}
    (hev : rep.provable.get? x = some ev) :
    ∃ s vm, MixVisitedBy g par i s ∧ vm.sender = x ∧ MixSentIn g par n.wire x s.transition.id vm.dyn ∧
      Recorded s.transcript (s.process vm) ev :=
  Loose.report h.looseInit (report_embed hn hr) hx hev

/-- **C92.**  Two parties following the protocol that are in the echo round of the same round, expect each other's echo message and
can finalize, hold the same broadcast of everybody whose broadcast both of them check.  They need not be there at the same time, nor
use the same driver. -/
theorem C92_agreement (rt : sp.EchoRoundTrip) (hmi : MainIds P) (hkey : ∀ i, H i → sp.verifyingKey (g.signer i) = i)
    {n n' : MixNet P} (h : MixOpenSteps g H par MixNet.init n) (h' : MixOpenSteps g H par n n') {i j : sp.Id} (hij : i ≠ j)
    {st st' : MixState P} {s s' : Session P} {a a' : Accum P} {e e' : EchoRd P} (hn : n.node i = some st)
    (hr : st.inRound = some (s, a)) (hn' : n'.node j = some st') (hr' : st'.inRound = some (s', a')) (he : s.round = .echo e)
    (he' : s'.round = .echo e') (hid : s.transition.id = s'.transition.id) (hy : a.canFinalize = .yes)
    (hy' : a'.canFinalize = .yes) (hx : s.comm.expecting.contains j = true) (hx' : s'.comm.expecting.contains i = true)
    (nocoll : NoCollision e e') (k : sp.Id) (hk : e.info.expectedEchos.contains k = true)
    (hk' : e'.info.expectedEchos.contains k = true) : SameBroadcast e e' k := by
  obtain ⟨p, h1, rfl⟩ := inRound_embed hn hr
  obtain ⟨p', h1', rfl⟩ := inRound_embed hn' hr'
  exact Loose.agreement rt hmi hkey h.looseInit (h.looseNext h') hij h1 h1' he he' hid hy hy' hx hx' nocoll k hk hk'

/-- **C92.**  Whatever an adversary makes of the parts a party following the protocol has signed for its echo round: another party
following the protocol accepts it, and then both hold the same broadcasts, or it shows that somebody who does not follow the
protocol has signed two broadcasts, or the two do not expect broadcasts of the same parties. -/
theorem C92_verdict (rt : sp.EchoRoundTrip) (mt : sp.MetaTotal) (hstrict : EchoStrict P) (hmi : MainIds P) (hac : Acyclic P)
    (hkey : ∀ i, H i → sp.verifyingKey (g.signer i) = i) {n : MixNet P} (h : MixOpenSteps g H par MixNet.init n) {i j : sp.Id}
    (hj : H j) {st : MixState P} {s : Session P} {a : Accum P} {e : EchoRd P} (hn : n.node i = some st)
    (hr : st.inRound = some (s, a)) (he : s.round = .echo e) {d : SignedPart .direct} {b : SignedPart .echo}
    {m : SignedPart .normal} (hu : Unforged H g.sid n.wire d b m) (ha : Authentic j g.sid s.transition.id d b m) :
    ∃ s' e', MixVisitedBy g par j s' ∧ s'.round = .echo e' ∧ s'.transition.id = s.transition.id ∧
      EchoVerdict H g.sid (P.transition e.main).id e e' j (s.round.receive j ⟨b.part, m.part, d.part⟩) := by
  obtain ⟨p, h1, rfl⟩ := inRound_embed hn hr
  exact Loose.verdict rt mt hstrict hmi hac hkey h.looseInit hj h1 he hu ha

/-- **C92.**  Evidence a party following the protocol has recorded under the name of another one in an echo round accuses somebody
who does not follow the protocol, and shows two broadcasts. -/
theorem C92_recorded (rt : sp.EchoRoundTrip) (mt : sp.MetaTotal) (hstrict : EchoStrict P) (hmi : MainIds P) (hac : Acyclic P)
    (hkey : ∀ i, H i → sp.verifyingKey (g.signer i) = i) {n : MixNet P} (h : MixOpenSteps g H par MixNet.init n) {i x : sp.Id}
    (hx : H x) {st : MixState P} {s : Session P} {a : Accum P} {e : EchoRd P} (hn : n.node i = some st)
    (hr : st.inRound = some (s, a)) (he : s.round = .echo e) {ev : Evidence sp} (hev : a.provable.get? x = some ev) :
    ∃ k, ¬ H k ∧ TwoBroadcasts k g.sid (P.transition e.main).id ev := by
  obtain ⟨p, h1, rfl⟩ := inRound_embed hn hr
  exact Loose.recorded rt mt hstrict hmi hac hkey h.looseInit hx h1 he hev

/-- **C92.**  Evidence a party has recorded is in its report, whatever happens later. -/
theorem C92_kept {n n' : MixNet P} (h : MixOpenSteps g H par MixNet.init n) (h' : MixOpenSteps g H par n n') {i x : sp.Id}
    {st st' : MixState P} {s : Session P} {a : Accum P} (hn : n.node i = some st) (hr : st.inRound = some (s, a))
    {ev : Evidence sp} (hev : a.provable.get? x = some ev) {rep : Report P} (hn' : n'.node i = some st')
    (hr' : st'.report = some (.ok rep)) : rep.provable.get? x = some ev := by
  obtain ⟨p, h1, rfl⟩ := inRound_embed hn hr
  exact Loose.kept (h.looseNext h') h1 hev (report_embed hn' hr')

/-- **C92.**  If messages of parties following the protocol are not refused, the evidence in a report never accuses one of them on
the word of another one, and convinces everybody. -/
theorem C92_no_blame (rt : sp.EchoRoundTrip) (mt : sp.MetaTotal) (hstrict : EchoStrict P) (hmi : MainIds P) (hac : Acyclic P)
    (hkey : ∀ i, H i → sp.verifyingKey (g.signer i) = i) {n : MixNet P} (h : MixOpenSteps g H par MixNet.init n) {i x : sp.Id}
    (hi : H i) (hx : H x) (hacc : ¬ MixRefused g par i x) {st : MixState P} {rep : Report P} (hn : n.node i = some st)
    (hr : st.report = some (.ok rep)) {ev : Evidence sp} (hev : rep.provable.get? x = some ev) (shared : P.Shared) :
    ¬ H ev.guilty ∧ ev.verify P shared = .ok () :=
  Loose.no_blame rt mt hstrict hmi hac hkey h.looseInit hi hx hacc (report_embed hn hr) hev shared

/-- **C92.**  If the echo rounds of two parties following the protocol hold different broadcasts of `k`, neither accepts the echo
message of the other one; they need not be there at the same time. -/
theorem C92_not_accepted (rt : sp.EchoRoundTrip) (mt : sp.MetaTotal) (hstrict : EchoStrict P) (hmi : MainIds P) (hac : Acyclic P)
    (hkey : ∀ i, H i → sp.verifyingKey (g.signer i) = i) {n n' : MixNet P} (h : MixOpenSteps g H par MixNet.init n)
    (h' : MixOpenSteps g H par MixNet.init n') (hor : MixOpenSteps g H par n n' ∨ MixOpenSteps g H par n' n) {i j : sp.Id}
    {st st' : MixState P} {s s' : Session P} {a a' : Accum P} {e e' : EchoRd P} (hn : n.node i = some st)
    (hr : st.inRound = some (s, a)) (hn' : n'.node j = some st') (hr' : st'.inRound = some (s', a')) (he : s.round = .echo e)
    (he' : s'.round = .echo e') (hid : s.transition.id = s'.transition.id) (nocoll : NoCollision e' e) {k : sp.Id} (hkj : k ≠ j)
    (hk : e.info.expectedEchos.contains k = true) (hdiff : ¬ SameBroadcast e' e k) :
    a.payloads.contains j = false ∧ (s.comm.expecting.contains j = true → a.canFinalize ≠ .yes) := by
  obtain ⟨p, h1, rfl⟩ := inRound_embed hn hr
  obtain ⟨p', h1', rfl⟩ := inRound_embed hn' hr'
  exact Loose.not_accepted rt mt hstrict hmi hac hkey h.looseInit h'.looseInit
    (hor.imp (fun k => h.looseNext k) fun k => h'.looseNext k) h1 h1' he he' hid nocoll hkj hk hdiff

/-- **C92.**  Evidence filed under the name of a party following the protocol in the report of another one shows that somebody else,
who does not follow the protocol, has signed two broadcasts, unless it was recorded as a message was refused that this party has
sent in a round that is not an echo round. -/
theorem C92_blamed (rt : sp.EchoRoundTrip) (mt : sp.MetaTotal) (hstrict : EchoStrict P) (hmi : MainIds P) (hac : Acyclic P)
    (hkey : ∀ i, H i → sp.verifyingKey (g.signer i) = i) {n : MixNet P} (h : MixOpenSteps g H par MixNet.init n) {i x : sp.Id}
    (hi : H i) (hx : H x) {st : MixState P} {rep : Report P} (hn : n.node i = some st) (hr : st.report = some (.ok rep))
    {ev : Evidence sp} (hev : rep.provable.get? x = some ev) :
    (∃ k rid, ¬ H k ∧ TwoBroadcasts k g.sid rid ev) ∨ MixRefused g par i x :=
  Loose.blamed rt mt hstrict hmi hac hkey h.looseInit hi hx (report_embed hn hr) hev

/-- **C92.**  If the echo rounds of two parties following the protocol hold different broadcasts of `k`, and both expect broadcasts of
the same parties, then a party using `run_session` that gets the echo message of the other one, whichever driver that one uses,
records that somebody who does not follow the protocol has signed two broadcasts. -/
theorem C92_caught (rt : sp.EchoRoundTrip) (mt : sp.MetaTotal) (hstrict : EchoStrict P) (hmi : MainIds P) (hac : Acyclic P)
    (hkey : ∀ i, H i → sp.verifyingKey (g.signer i) = i) {n n' : MixNet P} (h' : MixOpenSteps g H par MixNet.init n')
    (h : MixOpenSteps g H par n' n) {i j : sp.Id} {st' : MixState P} {s s' : Session P} {a a' : Accum P} {e e' : EchoRd P}
    (hn' : n'.node j = some st') (hr' : st'.inRound = some (s', a')) (hn : n.node i = some (.seq (.running s a)))
    (he : s.round = .echo e) (he' : s'.round = .echo e') (hid : s.transition.id = s'.transition.id) (nocoll : NoCollision e' e)
    (hgraph : ∀ k, k ≠ j → e.info.expectedEchos.contains k = e'.info.expectedEchos.contains k) {k : sp.Id} (hkj : k ≠ j)
    (hk : e.info.expectedEchos.contains k = true) (hdiff : ¬ SameBroadcast e' e k) {m : Message sp}
    (hu : Unforged H g.sid n.wire m.direct m.echo m.normal)
    (ha : Authentic j g.sid s.transition.id m.direct m.echo m.normal)
    (hwait : ¬ HasError s a j ∧ a.processing.contains j = false ∧ a.payloads.contains j = false ∧ a.notSent.contains j = true) :
    ∃ b ev k', deliver s a j m = .ok b ∧ b.provable.get? j = some ev ∧ ¬ H k' ∧
      TwoBroadcasts k' g.sid (P.transition e.main).id ev := by
  obtain ⟨p', h1', rfl⟩ := inRound_embed hn' hr'
  obtain ⟨p, h1, hpa⟩ := inRound_embed hn (s := s) (a := a) rfl
  obtain ⟨V, -, hi⟩ := (POpenInv.init (MixVisitedBy g par) g H).steps h'.looseInit
  obtain ⟨V', hVV, hi'⟩ := hi.steps (h'.looseNext h)
  have hno := hi'.node i s p h1
  obtain ⟨hsV, hpr, hsid, -⟩ := hno.session
  have hs' := hVV j s' (hi.node j s' p' h1').session.1
  obtain ⟨s1, hs1, e1, he1, hid1, hver⟩ :=
    hi'.verdict rt mt hstrict hmi hac hkey hno.1 (hi.node j s' p' h1').1 hsV he hu ha
  have := hi'.unique hmi hac s1 hs1 s' hs' (hid1.trans hid)
  subst this
  rw [he1] at he'
  simp only [SRound.echo.injEq] at he'
  subst he'
  generalize hr : s.round.receive j ⟨m.echo.part, m.normal.part, m.direct.part⟩ = r at hver
  cases hver with
  | agree hag => exact absurd (hag nocoll k hk hkj) hdiff
  | missing h1 h2 h3 =>
    rw [hgraph _ h1, h3] at h2
    simp at h2
  | extra h1 h2 h3 =>
    rw [hgraph _ h1, h3] at h2
    simp at h2
  | @caught k' w w' h1 h2 h3 h4 h5 h6 h7 =>
    obtain ⟨b, hb, hp⟩ := deliver_proves mt (proper_wellFormed hmi hpr) (by rw [hsid]; exact ha) hwait.1 hwait.2.1 hwait.2.2.1
      hwait.2.2.2 hr
    exact ⟨b, _, k', hb, hp, h1, w, w', rfl, h5, h6, h7⟩

/-- **C92.**  The same for a party using `par_run_session`, when it gets the result of processing the message. -/
theorem C92_caught_parallel (rt : sp.EchoRoundTrip) (mt : sp.MetaTotal) (hstrict : EchoStrict P) (hmi : MainIds P)
    (hac : Acyclic P) (hkey : ∀ i, H i → sp.verifyingKey (g.signer i) = i) {n n' : MixNet P}
    (h' : MixOpenSteps g H par MixNet.init n') (h : MixOpenSteps g H par n' n) {i j : sp.Id} {st' : MixState P} {s s' : Session P}
    {st : ParSt P} {a' : Accum P} {e e' : EchoRd P} (hn' : n'.node j = some st') (hr' : st'.inRound = some (s', a'))
    (hn : n.node i = some (.par (.running s st))) (he : s.round = .echo e) (he' : s'.round = .echo e')
    (hid : s.transition.id = s'.transition.id) (nocoll : NoCollision e' e)
    (hgraph : ∀ k, k ≠ j → e.info.expectedEchos.contains k = e'.info.expectedEchos.contains k) {k : sp.Id} (hkj : k ≠ j)
    (hk : e.info.expectedEchos.contains k = true) (hdiff : ¬ SameBroadcast e' e k) {t : Nat} {vm : VerifiedMessage sp}
    (ht : st.tasks[t]? = some vm) (hvm : vm.sender = j)
    (hwait : st.accum.provable.contains j = false ∧ st.accum.payloads.contains j = false ∧ st.accum.notSent.contains j = true) :
    ∃ b ev k', parOp s st (.complete t) = .ok b ∧ b.accum.provable.get? j = some ev ∧ ¬ H k' ∧
      TwoBroadcasts k' g.sid (P.transition e.main).id ev := by
  obtain ⟨p', h1', rfl⟩ := inRound_embed hn' hr'
  exact Loose.caught rt mt hstrict hmi hac hkey h'.looseInit (h'.looseNext h) h1'
    (show n.embed.node i = _ by simp [MixNet.embed, hn, MixState.embed]) he he' hid nocoll hgraph hkj hk hdiff ht hvm hwait

/-- **C92.**  Evidence in the report of a party following the protocol that accuses a party following the protocol is either filed
under the name of the accused, who has then sent a message in a round that is not an echo round, which was refused; or it is
filed under the name of somebody who does not follow the protocol, and has the echo broadcast the accused has made beside
another hash signed by the accused for the same round. -/
theorem C92_accused (rt : sp.EchoRoundTrip) (mt : sp.MetaTotal) (hstrict : EchoStrict P) (hmi : MainIds P) (hac : Acyclic P)
    (hne : NoEchoErr P) (hkey : ∀ i, H i → sp.verifyingKey (g.signer i) = i) {n : MixNet P}
    (h : MixOpenSteps g H par MixNet.init n) {i x : sp.Id} (hi : H i) {st : MixState P} {rep : Report P} (hn : n.node i = some st)
    (hr : st.report = some (.ok rep)) {ev : Evidence sp} (hev : rep.provable.get? x = some ev) (hg : H ev.guilty) :
    (x = ev.guilty ∧ MixRefused g par i x) ∨ (¬ H x ∧ ∃ s w, MixMisquoted g par ev.guilty s w ev) :=
  Loose.accused rt mt hstrict hmi hac hne hkey h.looseInit hi (report_embed hn hr) hev hg

/-- **C92.**  If the signed hash is not forged, the other hash is that of the normal broadcast or of a direct message of the accused
in the same round. -/
theorem C92_kind_confusion (rt : sp.EchoRoundTrip) (mt : sp.MetaTotal) (hstrict : EchoStrict P) (hmi : MainIds P)
    (hac : Acyclic P) (hne : NoEchoErr P) (hkey : ∀ i, H i → sp.verifyingKey (g.signer i) = i) {n : MixNet P}
    (h : MixOpenSteps g H par MixNet.init n) {i x : sp.Id} (hi : H i) {st : MixState P} {rep : Report P} (hn : n.node i = some st)
    (hr : st.report = some (.ok rep)) {ev : Evidence sp} (hev : rep.provable.get? x = some ev) (hg : H ev.guilty)
    (hunf : ∀ p w, ev.body = .mismatched ev.guilty p w → HashUnforged H g.sid n.wire w) :
    (x = ev.guilty ∧ MixRefused g par i x) ∨
      (¬ H x ∧ ∃ s w, MixMisquoted g par ev.guilty s w ev ∧ ∃ q ∈ n.wire, MixOwnPacket g par ev.guilty s.transition.id q ∧
        q.message.echo = s.echo ∧
        (w.hash = sp.partHash q.message.normal.part ∨ w.hash = sp.partHash q.message.direct.part)) :=
  Loose.kind_confusion rt mt hstrict hmi hac hne hkey h.looseInit hi (report_embed hn hr) hev hg hunf

/-- **C92.**  So if signatures told the kind of what is signed, parties following the protocol would only be accused over messages
they have sent that were refused. -/
theorem C92_if_kinds_were_signed (rt : sp.EchoRoundTrip) (mt : sp.MetaTotal) (hstrict : EchoStrict P) (hmi : MainIds P)
    (hac : Acyclic P) (hne : NoEchoErr P) (hkey : ∀ i, H i → sp.verifyingKey (g.signer i) = i) {n : MixNet P}
    (h : MixOpenSteps g H par MixNet.init n) {i x : sp.Id} (hi : H i) {st : MixState P} {rep : Report P} (hn : n.node i = some st)
    (hr : st.report = some (.ok rep)) {ev : Evidence sp} (hev : rep.provable.get? x = some ev) (hg : H ev.guilty)
    (hunf : ∀ p w, ev.body = .mismatched ev.guilty p w → EchoHashUnforged H g.sid n.wire w) :
    x = ev.guilty ∧ MixRefused g par i x :=
  Loose.if_kinds_were_signed rt mt hstrict hmi hac hne hkey h.looseInit hi (report_embed hn hr) hev hg hunf

/-- **C92.**  Nobody leaves a round before the parties following the protocol it waits for are in it: when a party can finalize its
round, each of them has sent messages of this very round. -/
theorem C92_entered {n : MixNet P} (h : MixOpenSteps g H par MixNet.init n) {i x : sp.Id} {st : MixState P} {s : Session P}
    {a : Accum P} (hn : n.node i = some st) (hr : st.inRound = some (s, a)) (hy : a.canFinalize = .yes) (hx : H x)
    (he : s.comm.expecting.contains x = true) :
    (∃ s', MixVisitedBy g par x s' ∧ s'.transition.id = s.transition.id) ∧ ∃ q ∈ n.wire, MixOwnPacket g par x s.transition.id q := by
  obtain ⟨p, h1, rfl⟩ := inRound_embed hn hr
  exact Loose.entered h.looseInit h1 hy hx he

/-- **C92.**  Whatever rounds a party has left, the parties following the protocol from which it always expects messages have been
in them. -/
theorem C92_behind {n : MixNet P} (h : MixOpenSteps g H par MixNet.init n) {i x : sp.Id} (hx : H x)
    (he : MixAlwaysExpects g par i x) {st : MixState P} {s : Session P} {a : Accum P} (hn : n.node i = some st)
    (hr : st.inRound = some (s, a)) {id : RoundId} (hp : Passed s id) : MixHasEntered n x id := by
  obtain ⟨p, h1, rfl⟩ := inRound_embed hn hr
  exact hasEntered_embed (ppassed_entered h.looseInit hx he h1 hp)

/-- **C92.**  Two running parties that follow the protocol and always expect messages from each other are at most one round apart,
if no round can be repeated, whichever drivers they use. -/
theorem C92_rounds (hmi : MainIds P) (hac : Acyclic P) {n : MixNet P} (h : MixOpenSteps g H par MixNet.init n) {i j : sp.Id}
    (hi : H i) (hj : H j) (hij : MixAlwaysExpects g par i j) (hji : MixAlwaysExpects g par j i) {st st' : MixState P}
    {s s' : Session P} {a a' : Accum P} (hn : n.node i = some st) (hr : st.inRound = some (s, a)) (hn' : n.node j = some st')
    (hr' : st'.inRound = some (s', a')) :
    (∀ id, Passed s id ↔ Passed s' id) ∨ (∀ id, Passed s id ↔ id = s'.transition.id ∨ Passed s' id) ∨
      ∀ id, Passed s' id ↔ id = s.transition.id ∨ Passed s id := by
  obtain ⟨p, h1, rfl⟩ := inRound_embed hn hr
  obtain ⟨p', h1', rfl⟩ := inRound_embed hn' hr'
  exact Loose.rounds hmi hac h.looseInit hi hj hij hji h1 h1'

/-- **C92.**  Every party in a round is in a state its driver can get into from a session object made for it. -/
theorem C92_runs {n : MixNet P} (h : MixOpenSteps g H par MixNet.init n) {i : sp.Id} :
    (∀ s a, n.node i = some (.seq (.running s a)) → H i ∧ par i = false ∧
      ∃ rng s₀, Session.new rng g.sid (g.signer i) (g.ep i) = .ok s₀ ∧ Reach s₀ (.running s a)) ∧
    (∀ s st, n.node i = some (.par (.running s st)) → H i ∧ par i = true ∧
      ∃ rng s₀, Session.new rng g.sid (g.signer i) (g.ep i) = .ok s₀ ∧ ParAny s₀ (.running s st)) := by
  have hok := (h.loose (.init g par)).1
  obtain ⟨V, -, hi⟩ := (POpenInv.init (MixVisitedBy g par) g H).steps h.looseInit
  refine ⟨fun s a hn => ?_, fun s st hn => ?_⟩
  · obtain ⟨h1, h2⟩ := hok i _ hn
    exact ⟨(hi.node i s ⟨a, [], []⟩ (by simp [MixNet.embed, hn, MixState.embed])).1, h1, h2 s a rfl⟩
  · obtain ⟨h1, h2⟩ := hok i _ hn
    exact ⟨(hi.node i s st (by simp [MixNet.embed, hn, MixState.embed])).1, h1, h2 s st rfl⟩

/-! ## The networks of one driver -/

/-- The network of parties using `run_session`, seen as a mixed one. -/
def Net.mix (n : Net P) : MixNet P := ⟨fun i => (n.node i).map .seq, n.wire⟩

/-- The network of parties using `par_run_session`, seen as a mixed one. -/
def PNet.mix (n : PNet P) : MixNet P := ⟨fun i => (n.node i).map .par, n.wire⟩

theorem Net.mix_put (n : Net P) (i : sp.Id) (st : RunState P) (out : List (Message sp)) :
    (n.put i st out).mix = n.mix.put i (.seq st) out := by
  unfold Net.mix Net.put MixNet.put
  congr 1
  funext j
  by_cases hj : j = i
  · subst hj
    simp
  · simp [Function.update_of_ne hj]

theorem PNet.mix_put (n : PNet P) (i : sp.Id) (st : ParState P) (out : List (Message sp)) :
    (n.put i st out).mix = n.mix.put i (.par st) out := by
  unfold PNet.mix PNet.put MixNet.put
  congr 1
  funext j
  by_cases hj : j = i
  · subst hj
    simp
  · simp [Function.update_of_ne hj]

/-- **C92.**  If nobody uses `par_run_session`, this is the network of `Verif.Props.Open`. -/
theorem C92_sequential {n : MixNet P} :
    MixOpenSteps g H (fun _ => false) MixNet.init n ↔ ∃ n', n = Net.mix n' ∧ OpenSteps g H Net.init n' := by
  constructor
  · intro h
    induction h with
    | refl => exact ⟨Net.init, rfl, .refl⟩
    | @step n n' _ hs ih =>
      obtain ⟨m, rfl, hm⟩ := ih
      have key : ∀ {i : sp.Id} {st : RunState P}, m.mix.node i = some (.seq st) → m.node i = some st := by
        intro i st hi
        simp only [Net.mix, Option.map_eq_some_iff, MixState.seq.injEq] at hi
        obtain ⟨st', h1, rfl⟩ := hi
        exact h1
      have keyn : ∀ {i : sp.Id}, m.mix.node i = none → m.node i = none := by
        intro i hi
        simpa [Net.mix] using hi
      cases hs with
      | startSeq rng rng' hi _ hn => exact ⟨_, (Net.mix_put _ _ _ _).symm, hm.step (.start rng rng' hi (keyn hn))⟩
      | actSeq hn hu hs => exact ⟨_, (Net.mix_put _ _ _ _).symm, hm.step (.act (key hn) hu hs)⟩
      | startFails rng rng' hi _ hn h1 h2 h3 =>
        exact ⟨_, (Net.mix_put _ _ _ _).symm, hm.step (.startFails rng rng' hi (keyn hn) h1 h2 h3)⟩
      | enterFails rng rng' hn h1 h2 h3 h4 =>
        exact ⟨_, (Net.mix_put _ _ _ _).symm, hm.step (.enterFails rng rng' (key hn) h1 h2 h3 h4)⟩
      | startPar _ _ _ hp _ => simp at hp
      | actPar hn _ _ _ =>
        simp only [Net.mix, Option.map_eq_some_iff] at hn
        obtain ⟨st', -, h1⟩ := hn
        simp at h1
  · rintro ⟨m, rfl, h⟩
    induction h with
    | refl => exact .refl
    | step _ hs ih =>
      refine ih.step ?_
      cases hs with
      | start rng rng' hi hn =>
        rw [Net.mix_put]
        exact .startSeq rng rng' hi rfl (by simp [Net.mix, hn])
      | act hn hu hs =>
        rw [Net.mix_put]
        exact .actSeq (by simp [Net.mix, hn]) hu hs
      | startFails rng rng' hi hn h1 h2 h3 =>
        rw [Net.mix_put]
        exact .startFails rng rng' hi rfl (by simp [Net.mix, hn]) h1 h2 h3
      | enterFails rng rng' hn h1 h2 h3 h4 =>
        rw [Net.mix_put]
        exact .enterFails rng rng' (by simp [Net.mix, hn]) h1 h2 h3 h4

/-- **C92.**  If everybody uses `par_run_session`, this is the network of `Verif.Props.ParAny`. -/
theorem C92_parallel {n : MixNet P} :
    MixOpenSteps g H (fun _ => true) MixNet.init n ↔ ∃ n', n = PNet.mix n' ∧ POpenSteps g H PNet.init n' := by
  constructor
  · intro h
    induction h with
    | refl => exact ⟨PNet.init, rfl, .refl⟩
    | @step n n' _ hs ih =>
      obtain ⟨m, rfl, hm⟩ := ih
      have no : ∀ {i : sp.Id} {st : RunState P}, m.mix.node i ≠ some (.seq st) := by
        intro i st hi
        simp only [PNet.mix, Option.map_eq_some_iff] at hi
        obtain ⟨st', -, h1⟩ := hi
        simp at h1
      cases hs with
      | startSeq _ _ _ hp _ => simp at hp
      | startFails _ _ _ hp _ _ _ _ => simp at hp
      | actSeq hn _ _ => exact absurd hn no
      | enterFails _ _ hn _ _ _ _ => exact absurd hn no
      | startPar rng rng' hi _ hn =>
        exact ⟨_, (PNet.mix_put _ _ _ _).symm, hm.step (.start rng rng' hi (by simpa [PNet.mix] using hn))⟩
      | actPar hn hu hs ho =>
        refine ⟨_, (PNet.mix_put _ _ _ _).symm, hm.step (.act ?_ hu hs ho)⟩
        simp only [PNet.mix, Option.map_eq_some_iff, MixState.par.injEq] at hn
        obtain ⟨st', h1, rfl⟩ := hn
        exact h1
  · rintro ⟨m, rfl, h⟩
    induction h with
    | refl => exact .refl
    | step _ hs ih =>
      refine ih.step ?_
      cases hs with
      | start rng rng' hi hn =>
        rw [PNet.mix_put]
        exact .startPar rng rng' hi rfl (by simp [PNet.mix, hn])
      | act hn hu hs ho =>
        rw [PNet.mix_put]
        exact .actPar (by simp [PNet.mix, hn]) hu hs ho

/-! ## Examples -/

/-- One event at a party, which may be different for the two drivers. -/
def mixOpenAct (n : MixNet P) (i : sp.Id) (ev : Option (Event sp)) (pev : ParEvent sp) : MixNet P :=
  match n.node i with
  | some (.seq st) =>
    match ev with
    | none => n
    | some ev =>
      match step st ev with
      | none => n
      | some (st', out) => n.put i (.seq st') out
  | some (.par (.running s st)) =>
    match parStep (.running s st) pev with
    | none => n
    | some st' => n.put i (.par st') (parOut st pev)
  | _ => n

/-- Executing a schedule; steps that are not possible are left out. -/
def mixOpenRun (rng : sp.Rng) (g : Group P) (H : List sp.Id) (par : sp.Id → Bool) : List (POpenAct sp) → MixNet P → MixNet P
  | [], n => n
  | .start i :: l, n =>
    mixOpenRun rng g H par l <| if decide (i ∈ H) = true ∧ (n.node i).isNone = true then
      match par i with
      | true => n.put i (.par (g.startPar i rng rng)) []
      | false => n.put i (.seq (g.startNode i rng rng).1) (g.startNode i rng rng).2
      else n
  | .tick i :: l, n => mixOpenRun rng g H par l (mixOpenAct n i (some (.tick rng)) (.tick rng))
  | .cancel i :: l, n => mixOpenRun rng g H par l (mixOpenAct n i (some .cancel) .cancel)
  | .complete i k :: l, n => mixOpenRun rng g H par l (mixOpenAct n i none (.op (.complete k)))
  | .send i k :: l, n => mixOpenRun rng g H par l (mixOpenAct n i none (.op (.send k)))
  | .forward k i y :: l, n =>
    mixOpenRun rng g H par l <| match n.wire[k]? with
      | none => n
      | some p => if unforged H g.sid n.wire p.message = true then
          mixOpenAct n i (some (.deliver y p.message)) (.op (.deliver y p.message)) else n
  | .inject i y m :: l, n =>
    mixOpenRun rng g H par l <|
      if unforged H g.sid n.wire m = true then mixOpenAct n i (some (.deliver y m)) (.op (.deliver y m)) else n

theorem mixOpenAct_steps {H : List sp.Id} {n₀ n : MixNet P} (h : MixOpenSteps g (fun i => i ∈ H) par n₀ n) (i : sp.Id)
    (ev : Option (Event sp)) (pev : ParEvent sp) (hu : ∀ y m, ev = some (.deliver y m) → unforged H g.sid n.wire m = true)
    (hup : ∀ y m, pev = .op (.deliver y m) → unforged H g.sid n.wire m = true) :
    MixOpenSteps g (fun i => i ∈ H) par n₀ (mixOpenAct n i ev pev) := by
  unfold mixOpenAct
  split
  · rename_i st hn
    split
    · exact h
    · split
      · exact h
      · rename_i ev st' out hs
        exact h.step (.actSeq hn (fun y m he => unforged_spec (hu y m (by rw [he]))) hs)
  · rename_i s st hn
    split
    · exact h
    · rename_i st' hs
      exact h.step (.actPar hn (fun y m he => unforged_spec (hup y m he)) hs fun m hm => parOut_mem hm)
  · exact h

theorem mixOpenRun_steps (rng : sp.Rng) {H : List sp.Id} (l : List (POpenAct sp)) {n₀ n : MixNet P}
    (h : MixOpenSteps g (fun i => i ∈ H) par n₀ n) : MixOpenSteps g (fun i => i ∈ H) par n₀ (mixOpenRun rng g H par l n) := by
  induction l generalizing n with
  | nil => exact h
  | cons a l ih =>
    cases a with
    | start i =>
      simp only [mixOpenRun]
      apply ih
      split
      · rename_i hc
        split
        · rename_i hp
          exact h.step (.startPar _ _ (by simpa using hc.1) hp (by simpa using hc.2))
        · rename_i hp
          exact h.step (.startSeq _ _ (by simpa using hc.1) hp (by simpa using hc.2))
      · exact h
    | tick i => exact ih (mixOpenAct_steps h i _ _ (by simp) (by simp))
    | cancel i => exact ih (mixOpenAct_steps h i _ _ (by simp) (by simp))
    | complete i k => exact ih (mixOpenAct_steps h i _ _ (by simp) (by simp))
    | send i k => exact ih (mixOpenAct_steps h i _ _ (by simp) (by simp))
    | forward k i y =>
      simp only [mixOpenRun]
      apply ih
      split
      · exact h
      · rename_i p hp
        split
        · rename_i hc
          refine mixOpenAct_steps h i _ _ ?_ ?_
          · intro y' m' he
            simp only [Option.some.injEq, Event.deliver.injEq] at he
            rw [← he.2]
            exact hc
          · intro y' m' he
            simp only [ParEvent.op.injEq, ParOp.deliver.injEq] at he
            rw [← he.2]
            exact hc
        · exact h
    | inject i y m =>
      simp only [mixOpenRun]
      apply ih
      split
      · rename_i hc
        refine mixOpenAct_steps h i _ _ ?_ ?_
        · intro y' m' he
          simp only [Option.some.injEq, Event.deliver.injEq] at he
          rw [← he.2]
          exact hc
        · intro y' m' he
          simp only [ParEvent.op.injEq, ParOp.deliver.injEq] at he
          rw [← he.2]
          exact hc
      · exact h

/-- Party 2 uses `par_run_session`, the others do not. -/
def mixPar2 (i : U8) : Bool := decide (i = 2)

/-- Executing a schedule of the example protocol with three parties, of which 1 and 2 follow the protocol. -/
def mixOpenDemo (l : List (POpenAct toy)) (n : MixNet (demo true 2).wrap) : MixNet (demo true 2).wrap :=
  mixOpenRun (0 : Nat) (demoGroup true 2 (BSet.ofList [1, 2, 3])) ([1, 2] : List U8) mixPar2 l n

theorem mixOpenDemo_steps (l : List (POpenAct toy)) (n : MixNet (demo true 2).wrap) :
    MixOpenSteps (demoGroup true 2 (BSet.ofList [1, 2, 3])) (fun i : U8 => i ∈ ([1, 2] : List U8)) mixPar2 n (mixOpenDemo l n) :=
  mixOpenRun_steps (sp := toy) (0 : Nat) l .refl

/-- Parties 1 and 2 follow the protocol.  The adversary gives party 2 what party 1 has sent to party 3 and the other way round, and
makes up the messages of party 3, with the given echo broadcast for party 2. -/
def mixOpenBegin (b : U8) : List (POpenAct toy) :=
  [.start (1 : U8), .start (2 : U8), .send (2 : U8) 0, .send (2 : U8) 0, .forward 3 (1 : U8) (2 : U8),
    .forward 1 (2 : U8) (1 : U8)] ++
    popenDemo 3 1 (RoundId.new 1) (some [5]) (some [3]) (some [7]) ++ popenDemo 3 2 (RoundId.new 1) (some [6]) (some [b]) (some [8]) ++
    [.complete (2 : U8) 0, .complete (2 : U8) 0, .tick (1 : U8), .tick (2 : U8), .send (2 : U8) 0, .forward 6 (1 : U8) (2 : U8)]

/-- Party 3 sends its message for the echo round. -/
def mixOpenEcho (dest : U8) : List (POpenAct toy) :=
  popenDemo 3 dest ⟨1, [], true⟩ none none (some (demoPack (RoundId.new 1) [(1, [1]), (2, [2])]))

/-- Later party 2 gets to the end of the echo round as well; party 1 has gone on. -/
def mixOpenLater : List (POpenAct toy) :=
  [.tick (1 : U8), .forward 4 (2 : U8) (1 : U8)] ++ mixOpenEcho 2 ++ [.complete (2 : U8) 0, .complete (2 : U8) 0]

/-- The round of party `i` and what it has accumulated. -/
def MixNet.round {P : Proto toy} (n : MixNet P) (i : U8) : Option (Session P × Accum P) :=
  match n.node i with
  | some st => st.inRound
  | none => none

theorem mixRound_eq {P : Proto toy} {n : MixNet P} {i : U8} {s : Session P} {a : Accum P} (h : n.round i = some (s, a)) :
    ∃ st, n.node i = some st ∧ st.inRound = some (s, a) := by
  unfold MixNet.round at h
  split at h
  · rename_i st hn
    exact ⟨st, hn, h⟩
  · cases h

/-- Whether the parties are in echo rounds they can finalize. -/
def mixReady {P : Proto toy} (n n' : MixNet P) : Bool :=
  match n.round 1, n'.round 2 with
  | some (s, a), some (s', a') =>
    match s.round, s'.round with
    | .echo e, .echo e' =>
      decide (s.transition.id = s'.transition.id) && decide (a.canFinalize = .yes) && decide (a'.canFinalize = .yes) &&
        s.comm.expecting.contains (2 : U8) && s'.comm.expecting.contains (1 : U8) &&
        e.info.expectedEchos.contains (3 : U8) && e'.info.expectedEchos.contains (3 : U8) &&
        (a.payloads.get? (2 : U8)).isSome && (a'.payloads.get? (1 : U8)).isSome
    | _, _ => false
  | _, _ => false

/-- The hypotheses of `C92_integrity`, `C92_finalizing`, `C92_agreement` and `C92_entered` can be met. -/
example : ∃ (n n' : MixNet (demo true 2).wrap) (m m' : MixState (demo true 2).wrap) (s s' : Session (demo true 2).wrap)
    (a a' : Accum (demo true 2).wrap) (e e' : EchoRd (demo true 2).wrap),
    MixOpenSteps (demoGroup true 2 (BSet.ofList [1, 2, 3])) (fun i : U8 => i ∈ ([1, 2] : List U8)) mixPar2 MixNet.init n ∧
      MixOpenSteps (demoGroup true 2 (BSet.ofList [1, 2, 3])) (fun i : U8 => i ∈ ([1, 2] : List U8)) mixPar2 n n' ∧
      n.node (1 : U8) = some m ∧ m.inRound = some (s, a) ∧ n'.node (2 : U8) = some m' ∧ m'.inRound = some (s', a') ∧
      s.round = .echo e ∧ s'.round = .echo e' ∧ s.transition.id = s'.transition.id ∧ a.canFinalize = .yes ∧ a'.canFinalize = .yes ∧
      s.comm.expecting.contains (2 : U8) = true ∧ s'.comm.expecting.contains (1 : U8) = true ∧ NoCollision e e' ∧
      e.info.expectedEchos.contains (3 : U8) = true ∧ e'.info.expectedEchos.contains (3 : U8) = true ∧
      (a.payloads.get? (2 : U8)).isSome = true ∧ (a'.payloads.get? (1 : U8)).isSome = true := by
  have h : mixReady (mixOpenDemo (mixOpenBegin 3 ++ mixOpenEcho 1) MixNet.init)
      (mixOpenDemo mixOpenLater (mixOpenDemo (mixOpenBegin 3 ++ mixOpenEcho 1) MixNet.init)) = true := by
    decide +kernel
  have r1 := mixOpenDemo_steps (mixOpenBegin 3 ++ mixOpenEcho 1) MixNet.init
  have r2 := mixOpenDemo_steps mixOpenLater (mixOpenDemo (mixOpenBegin 3 ++ mixOpenEcho 1) MixNet.init)
  generalize mixOpenDemo (mixOpenBegin 3 ++ mixOpenEcho 1) MixNet.init = n at h r1 r2
  generalize mixOpenDemo mixOpenLater n = n' at h r2
  unfold mixReady at h
  split at h
  · rename_i s a s' a' h1 h2
    obtain ⟨m, h1, h1'⟩ := mixRound_eq h1
    obtain ⟨m', h2, h2'⟩ := mixRound_eq h2
    split at h
    · rename_i e e' h3 h4
      simp only [Bool.and_eq_true, decide_eq_true_eq] at h
      obtain ⟨⟨⟨⟨⟨⟨⟨⟨k1, k2⟩, k3⟩, k4⟩, k5⟩, k6⟩, k7⟩, k8⟩, k9⟩ := h
      exact ⟨n, n', m, m', s, s', a, a', e, e', r1, r2, h1, h1', h2, h2', h3, h4, k1, k2, k3, k4, k5,
        fun k p p' _ _ hc => toy_hashInjective _ _ hc, k6, k7, k8, k9⟩
    · exact (Bool.false_ne_true h).elim
  · exact (Bool.false_ne_true h).elim

theorem demo_mixAlwaysExpects {par : U8 → Bool} {i x : U8}
    (hx : BMap.contains ((BSet.ofList [1, 2, 3] : BSet U8).erase i) x = true) :
    MixAlwaysExpects (demoGroup true 2 (BSet.ofList [1, 2, 3])) par i x := by
  rintro s (⟨-, hv⟩ | ⟨-, hv⟩)
  · refine alwaysExpects_of (g := demoGroup true 2 (BSet.ofList [1, 2, 3]))
      (I := fun r : DemoSt => r.others = (BSet.ofList [1, 2, 3] : BSet U8).erase i) ?_ ?_ ?_ ?_ ?_ s hv
    · intro rng r hr
      cases hr
      rfl
    · intro r rng ps as r' hI hf
      simp only [TypedProto.wrap, demo] at hf
      split at hf
      · cases hf
      · cases hf
        exact hI
    · intro r hI
      show BMap.contains (DemoSt.others r) x = true
      rw [hI]
      exact hx
    · intro r hI _
      show BMap.contains (DemoSt.others r) x = true
      rw [hI]
      exact hx
    · intro r t hI h
      cases h
  · exact demo_parAlwaysExpects hx s hv

/-- Whether party 1 has left the round party 2 is in. -/
def mixAhead {P : Proto toy} (n : MixNet P) : Bool :=
  match n.round 1, n.round 2 with
  | some (s, _), some (s', _) => s.transcript.echos.contains s'.transition.id
  | _, _ => false

/-- The hypotheses of `C92_behind` and `C92_rounds` can be met, and it is the second case that occurs. -/
example : MainIds (demo true 2).wrap ∧ Acyclic (demo true 2).wrap ∧
    MixAlwaysExpects (demoGroup true 2 (BSet.ofList [1, 2, 3])) mixPar2 (1 : U8) (2 : U8) ∧
    MixAlwaysExpects (demoGroup true 2 (BSet.ofList [1, 2, 3])) mixPar2 (2 : U8) (1 : U8) ∧
    ∃ (n : MixNet (demo true 2).wrap) (m m' : MixState (demo true 2).wrap) (s s' : Session (demo true 2).wrap)
      (a a' : Accum (demo true 2).wrap),
      MixOpenSteps (demoGroup true 2 (BSet.ofList [1, 2, 3])) (fun i : U8 => i ∈ ([1, 2] : List U8)) mixPar2 MixNet.init n ∧
        n.node (1 : U8) = some m ∧ m.inRound = some (s, a) ∧ n.node (2 : U8) = some m' ∧ m'.inRound = some (s', a') ∧
        Passed s s'.transition.id := by
  have h : mixAhead (mixOpenDemo (mixOpenBegin 3 ++ mixOpenEcho 1 ++ mixOpenLater) MixNet.init) = true := by
    decide +kernel
  have r1 := mixOpenDemo_steps (mixOpenBegin 3 ++ mixOpenEcho 1 ++ mixOpenLater) MixNet.init
  generalize mixOpenDemo (mixOpenBegin 3 ++ mixOpenEcho 1 ++ mixOpenLater) MixNet.init = n at h r1
  unfold mixAhead at h
  split at h
  · rename_i s a s' a' h1 h2
    obtain ⟨m, h1, h1'⟩ := mixRound_eq h1
    obtain ⟨m', h2, h2'⟩ := mixRound_eq h2
    exact ⟨demo_mainIds _ _, demo_acyclic _ _, demo_mixAlwaysExpects (by decide +kernel), demo_mixAlwaysExpects (by decide +kernel),
      n, m, m', s, s', a, a', r1, h1, h1', h2, h2', h⟩
  · exact (Bool.false_ne_true h).elim

/-- A property of the rounds that `finalize` keeps, for either driver. -/
theorem mixVisited_rd {I : P.Rd → Prop} (hfin : ∀ r rng ps as r', I r → P.finalize r rng ps as = .ok (.anotherRound r') → I r')
    {x : sp.Id} {s : Session P} (h : MixVisitedBy g par x s)
    (h0 : ∀ rng s₀, Session.new rng g.sid (g.signer x) (g.ep x) = .ok s₀ → ∃ r, s₀.round = .main r ∧ I r) :
    Proper s ∧ ∃ r, I r ∧ (s.round = .main r ∨ ∃ e, s.round = .echo e ∧ e.main = r) := by
  rcases h with ⟨-, rng, s₀, trail, cached, hnew, hv⟩ | ⟨-, rng, s₀, st, hnew, hv⟩
  · obtain ⟨hp0, -, -, -, hm0⟩ := new_proper hnew
    exact ⟨(visits_inv hp0 hm0 hv).proper, visits_rd hfin hv (h0 _ _ hnew)⟩
  · obtain ⟨hp0, -, -, -, hm0⟩ := new_proper hnew
    obtain ⟨trail, cached, -, -, hv, -⟩ := parAny_running hv
    exact ⟨(pvisits_inv hp0 hm0 hv).proper, pvisits_rd hfin hv (h0 _ _ hnew)⟩

/-- The messages of the example protocol are not refused. -/
theorem demo_not_mixRefused (last : U8) (par : U8 → Bool) (i x : U8) :
    ¬ MixRefused (demoGroup true last (BSet.ofList [1, 2, 3])) par i x := by
  have hkeep : ∀ y : U8, ∀ (r : DemoSt) rng ps as (r' : DemoSt),
      (r.me = y ∧ r.others = (BSet.ofList [1, 2, 3] : BSet U8).erase y) →
      (demo true last).wrap.finalize r rng ps as = .ok (.anotherRound r') →
      (r'.me = y ∧ r'.others = (BSet.ofList [1, 2, 3] : BSet U8).erase y) := by
    intro y r rng ps as r' hI hf
    simp only [TypedProto.wrap, demo] at hf
    split at hf
    · simp at hf
    · cases hf
      exact hI
  have hfirst : ∀ (y : U8) rng s₀, Session.new rng (demoGroup true last (BSet.ofList [1, 2, 3])).sid
      ((demoGroup true last (BSet.ofList [1, 2, 3])).signer y) ((demoGroup true last (BSet.ofList [1, 2, 3])).ep y) = .ok s₀ →
      ∃ r : DemoSt, s₀.round = .main r ∧ (r.me = y ∧ r.others = (BSet.ofList [1, 2, 3] : BSet U8).erase y) := by
    intro y rng s₀ hnew
    unfold Session.new at hnew
    simp only [demoGroup, demoEntry] at hnew
    have := newForNextRound_ok hnew
    exact ⟨_, this.round, rfl, rfl⟩
  rintro ⟨s, r, m, err, hs, hr, ⟨s', hs', hid, he, hn, d, rng1, art, hd, hmd⟩, herr⟩
  obtain ⟨hp, -⟩ := mixVisited_rd (P := (demo true last).wrap) (hkeep i) hs (hfirst i)
  obtain ⟨hp', q, ⟨hme, hoth⟩, hq⟩ := mixVisited_rd (P := (demo true last).wrap) (hkeep x) hs' (hfirst x)
  have hne : s'.roundId.isEcho = false := by
    have h1 : s.roundId = ((demo true last).wrap.transition r).id := by
      have := hp.transition
      rw [hr] at this
      simp only [SRound.transition, Except.ok.injEq] at this
      unfold Session.roundId
      rw [this]
    unfold Session.roundId at h1 ⊢
    rw [hid, h1]
    exact demo_mainIds true last r
  obtain ⟨r', hr', -⟩ := main_of_id (demo_mainIds true last) hp' hne
  have hqr : q = r' := by
    rcases hq with hq | ⟨e, hq, -⟩
    · rw [hr'] at hq
      cases hq
      rfl
    · rw [hr'] at hq
      cases hq
  subst hqr
  have hcomm : s'.comm.destinations = (BSet.ofList [1, 2, 3]).erase x := by
    rw [hp'.comm, hr', ← hoth]
    rfl
  have hd' := hd
  rw [hcomm] at hd'
  obtain ⟨h66, h67⟩ := erased_small x d hd'
  have hnonempty : s'.comm.destinations.isEmpty = false := BMap.isEmpty_eq_false.2 ⟨d, hd⟩
  obtain ⟨rng2, hE⟩ := hp'.echoPart
  obtain ⟨rng3, hN⟩ := hp'.normalPart
  rw [hnonempty, hr'] at hE hN
  rw [hr'] at hmd
  have hE2 : (Except.ok (⟨some [q.me]⟩ : Part .echo) : Except LErr _) = .ok s'.echo.part := hE
  have hN2 : (Except.ok (⟨some [q.n]⟩ : Part .normal) : Except LErr _) = .ok s'.normal.part := hN
  have hD2 : (Except.ok ((⟨some [d]⟩ : Part .direct), some ()) : Except LErr _) = .ok (m.direct, art) := hmd
  simp only [Except.ok.injEq] at hE2 hN2 hD2
  have hD3 : (⟨some [d]⟩ : Part .direct) = m.direct := congrArg Prod.fst hD2
  obtain ⟨v, hv⟩ := demo_receives true last r x d q.n ⟨some [x]⟩ h66 h67 rfl
  rw [show m = ⟨⟨some [x]⟩, ⟨some [q.n]⟩, ⟨some [d]⟩⟩ by
    cases m
    simp only at he hn hD3
    rw [he, hn, ← hE2, ← hN2, ← hD3, hme]] at herr
  rw [hv] at herr
  cases herr

/-- Whether the parties 1 and 2 are in the same echo round with different broadcasts of party 3, party 1 has evidence filed under
the name of party 2, and has it in its report later. -/
def mixCaught {P : Proto toy} (n n' : MixNet P) : Bool :=
  match n.round 1, n.round 2, n'.node (1 : U8) with
  | some (s, a), some (s', _), some (.seq (.done (.ok rep))) =>
    match s.round, s'.round with
    | .echo e, .echo e' =>
      decide (s.transition.id = s'.transition.id) && e.info.expectedEchos.contains (3 : U8) &&
        decide ((e.echoBroadcasts.get? (3 : U8)).map (fun p => p.part) ≠ (e'.echoBroadcasts.get? (3 : U8)).map (fun p => p.part)) &&
        s.comm.expecting.contains (2 : U8) && a.provable.contains (2 : U8) && rep.provable.contains (2 : U8)
    | _, _ => false
  | _, _, _ => false

/-- The hypotheses of `C92_report`, `C92_blamed`, `C92_recorded`, `C92_kept`, `C92_no_blame` and `C92_not_accepted` can be met. -/
example : toy.EchoRoundTrip ∧ toy.MetaTotal ∧ EchoStrict (demo true 2).wrap ∧ MainIds (demo true 2).wrap ∧
    Acyclic (demo true 2).wrap ∧
    (∀ i : U8, i ∈ ([1, 2] : List U8) → toy.verifyingKey ((demoGroup true 2 (BSet.ofList [1, 2, 3])).signer i) = i) ∧
    ¬ MixRefused (demoGroup true 2 (BSet.ofList [1, 2, 3])) mixPar2 (1 : U8) (2 : U8) ∧
    ∃ (n n' : MixNet (demo true 2).wrap) (m m' m'' : MixState (demo true 2).wrap) (s s' : Session (demo true 2).wrap)
      (a a' : Accum (demo true 2).wrap) (e e' : EchoRd (demo true 2).wrap) (ev ev' : Evidence toy) (rep : Report (demo true 2).wrap),
      MixOpenSteps (demoGroup true 2 (BSet.ofList [1, 2, 3])) (fun i : U8 => i ∈ ([1, 2] : List U8)) mixPar2 MixNet.init n ∧
        MixOpenSteps (demoGroup true 2 (BSet.ofList [1, 2, 3])) (fun i : U8 => i ∈ ([1, 2] : List U8)) mixPar2 n n' ∧
        n.node (1 : U8) = some m ∧ m.inRound = some (s, a) ∧ n.node (2 : U8) = some m' ∧ m'.inRound = some (s', a') ∧
        s.round = .echo e ∧ s'.round = .echo e' ∧ s.transition.id = s'.transition.id ∧ NoCollision e' e ∧
        e.info.expectedEchos.contains (3 : U8) = true ∧ ¬ SameBroadcast e' e (3 : U8) ∧ s.comm.expecting.contains (2 : U8) = true ∧
        a.provable.get? (2 : U8) = some ev ∧ n'.node (1 : U8) = some m'' ∧ m''.report = some (.ok rep) ∧
        rep.provable.get? (2 : U8) = some ev' := by
  refine ⟨toy_echoRoundTrip, toy_metaTotal, demo_strict true 2, demo_mainIds true 2, demo_acyclic true 2, fun i _ => rfl,
    demo_not_mixRefused 2 mixPar2 1 2, ?_⟩
  have h : mixCaught (mixOpenDemo (mixOpenBegin 4) MixNet.init)
      (mixOpenDemo (mixOpenEcho 1 ++ [.tick (1 : U8)]) (mixOpenDemo (mixOpenBegin 4) MixNet.init)) = true := by
    decide +kernel
  have r1 := mixOpenDemo_steps (mixOpenBegin 4) MixNet.init
  have r2 := mixOpenDemo_steps (mixOpenEcho 1 ++ [.tick (1 : U8)]) (mixOpenDemo (mixOpenBegin 4) MixNet.init)
  generalize mixOpenDemo (mixOpenBegin 4) MixNet.init = n at h r1 r2
  generalize mixOpenDemo (mixOpenEcho 1 ++ [.tick (1 : U8)]) n = n' at h r2
  unfold mixCaught at h
  split at h
  · rename_i s a s' a' rep h1 h2 h0
    obtain ⟨m, h1, h1'⟩ := mixRound_eq h1
    obtain ⟨m', h2, h2'⟩ := mixRound_eq h2
    split at h
    · rename_i e e' h3 h4
      simp only [Bool.and_eq_true, decide_eq_true_eq, ne_eq] at h
      obtain ⟨⟨⟨⟨⟨k1, k2⟩, k3⟩, k4⟩, k5⟩, k6⟩ := h
      obtain ⟨ev, k5⟩ := BMap.contains_iff.1 k5
      obtain ⟨ev', k6⟩ := BMap.contains_iff.1 k6
      refine ⟨n, n', m, m', _, s, s', a, a', e, e', ev, ev', rep, r1, r2, h1, h1', h2, h2', h3, h4, k1,
        fun k p p' _ _ hc => toy_hashInjective _ _ hc, k2, ?_, k4, k5, h0, rfl, k6⟩
      rintro ⟨p, p', h5, h6, -, h7⟩
      refine k3 ?_
      rw [h5, h6]
      exact congrArg some h7.symm
    · exact (Bool.false_ne_true h).elim
  · exact (Bool.false_ne_true h).elim

/-- Whether the parties 1 and 2 are in the same echo round with different broadcasts of party 3, expect broadcasts of the same parties,
party 1 waits for the message `m` of party 2, and party 2 is processing one of party 1. -/
def mixDiffering {P : Proto toy} (n : MixNet P) (m : Message toy) : Bool :=
  match n.node (1 : U8), n.node (2 : U8) with
  | some (.seq (.running s a)), some (.par (.running s' st)) =>
    match s.round, s'.round, st.tasks[0]? with
    | .echo e, .echo e', some vm =>
      decide (s.transition.id = s'.transition.id) &&
        decide (e.info.expectedEchos.erase (2 : U8) = e'.info.expectedEchos.erase (2 : U8)) &&
        decide (e'.info.expectedEchos.erase (1 : U8) = e.info.expectedEchos.erase (1 : U8)) &&
        e.info.expectedEchos.contains (3 : U8) && e'.info.expectedEchos.contains (3 : U8) &&
        decide ((e.echoBroadcasts.get? (3 : U8)).map (fun p => p.part) ≠ (e'.echoBroadcasts.get? (3 : U8)).map (fun p => p.part)) &&
        !s.transcript.provable.contains (2 : U8) && !s.transcript.unprovable.contains (2 : U8) &&
        !a.provable.contains (2 : U8) && !a.unprovable.contains (2 : U8) && !a.processing.contains (2 : U8) &&
        !a.payloads.contains (2 : U8) && a.notSent.contains (2 : U8) &&
        partAuthentic 2 [9] s.transition.id m.direct && partAuthentic 2 [9] s.transition.id m.echo &&
        partAuthentic 2 [9] s.transition.id m.normal && unforged ([1, 2] : List U8) [9] n.wire m &&
        isOne vm.sender && !st.accum.provable.contains (1 : U8) && !st.accum.payloads.contains (1 : U8) &&
        st.accum.notSent.contains (1 : U8)
    | _, _, _ => false
  | _, _ => false

/-- The hypotheses of `C92_verdict`, `C92_caught` and `C92_caught_parallel` can be met. -/
example : ∃ (n : MixNet (demo true 2).wrap) (s s' : Session (demo true 2).wrap) (a : Accum (demo true 2).wrap)
    (st : ParSt (demo true 2).wrap) (e e' : EchoRd (demo true 2).wrap) (m : Message toy) (vm : VerifiedMessage toy),
    MixOpenSteps (demoGroup true 2 (BSet.ofList [1, 2, 3])) (fun i : U8 => i ∈ ([1, 2] : List U8)) mixPar2 MixNet.init n ∧
      n.node (1 : U8) = some (.seq (.running s a)) ∧ n.node (2 : U8) = some (.par (.running s' st)) ∧ s.round = .echo e ∧
      s'.round = .echo e' ∧ s.transition.id = s'.transition.id ∧ NoCollision e' e ∧ NoCollision e e' ∧
      (∀ k : U8, k ≠ 2 → e.info.expectedEchos.contains k = e'.info.expectedEchos.contains k) ∧
      (∀ k : U8, k ≠ 1 → e'.info.expectedEchos.contains k = e.info.expectedEchos.contains k) ∧
      e.info.expectedEchos.contains (3 : U8) = true ∧ e'.info.expectedEchos.contains (3 : U8) = true ∧
      ¬ SameBroadcast e' e (3 : U8) ∧ ¬ SameBroadcast e e' (3 : U8) ∧
      Unforged (fun i : U8 => i ∈ ([1, 2] : List U8)) [9] n.wire m.direct m.echo m.normal ∧
      Authentic (sp := toy) (2 : U8) [9] s.transition.id m.direct m.echo m.normal ∧
      (¬ HasError s a (2 : U8) ∧ a.processing.contains (2 : U8) = false ∧ a.payloads.contains (2 : U8) = false ∧
        a.notSent.contains (2 : U8) = true) ∧
      st.tasks[0]? = some vm ∧ vm.sender = (1 : U8) ∧
      (st.accum.provable.contains (1 : U8) = false ∧ st.accum.payloads.contains (1 : U8) = false ∧
        st.accum.notSent.contains (1 : U8) = true) := by
  have h : ∃ q, (mixOpenDemo ((mixOpenBegin 4).dropLast ++ [.forward 4 (2 : U8) (1 : U8)]) MixNet.init).wire[6]? = some q ∧
      mixDiffering (mixOpenDemo ((mixOpenBegin 4).dropLast ++ [.forward 4 (2 : U8) (1 : U8)]) MixNet.init) q.message = true := by
    have : (match (mixOpenDemo ((mixOpenBegin 4).dropLast ++ [.forward 4 (2 : U8) (1 : U8)]) MixNet.init).wire[6]? with
        | some q => mixDiffering (mixOpenDemo ((mixOpenBegin 4).dropLast ++ [.forward 4 (2 : U8) (1 : U8)]) MixNet.init) q.message
        | none => false) = true := by decide +kernel
    split at this
    · rename_i q hq
      exact ⟨q, hq, this⟩
    · cases this
  have r1 := mixOpenDemo_steps ((mixOpenBegin 4).dropLast ++ [.forward 4 (2 : U8) (1 : U8)]) MixNet.init
  generalize mixOpenDemo ((mixOpenBegin 4).dropLast ++ [.forward 4 (2 : U8) (1 : U8)]) MixNet.init = n at h r1
  obtain ⟨q, -, h⟩ := h
  unfold mixDiffering at h
  split at h
  · rename_i s a s' st h1 h2
    split at h
    · rename_i e e' vm h3 h4 h5
      simp only [Bool.and_eq_true, decide_eq_true_eq, Bool.not_eq_true', ne_eq] at h
      obtain ⟨⟨⟨⟨⟨⟨⟨⟨⟨⟨⟨⟨⟨⟨⟨⟨⟨⟨⟨⟨k1, k2⟩, k3⟩, k4⟩, k5⟩, k6⟩, k7⟩, k8⟩, k9⟩, k10⟩, k11⟩, k12⟩, k13⟩, k14⟩, k15⟩, k16⟩, k17⟩, k18⟩,
        k19⟩, k20⟩, k21⟩ := h
      refine ⟨n, s, s', a, st, e, e', q.message, vm, r1, h1, h2, h3, h4, k1, fun k p p' _ _ hc => toy_hashInjective _ _ hc,
        fun k p p' _ _ hc => toy_hashInjective _ _ hc, fun k hk => erase_contains k2 hk, fun k hk => erase_contains k3 hk, k4, k5,
        ?_, ?_, unforged_spec k17, ⟨partAuthentic_spec k14, partAuthentic_spec k15, partAuthentic_spec k16⟩, ⟨?_, k11, k12, k13⟩, h5,
        isOne_spec k18, k19, k20, k21⟩
      · rintro ⟨p, p', h5, h6, -, h7⟩
        refine k6 ?_
        rw [h5, h6]
        exact congrArg some h7.symm
      · rintro ⟨p, p', h5, h6, -, h7⟩
        refine k6 ?_
        rw [h5, h6]
        exact congrArg some h7
      · rintro (⟨x, hx⟩ | ⟨x, hx⟩ | ⟨x, hx⟩ | ⟨x, hx⟩)
        · rw [BMap.contains_iff.2 ⟨x, hx⟩] at k7; cases k7
        · rw [BMap.contains_iff.2 ⟨x, hx⟩] at k8; cases k8
        · rw [BMap.contains_iff.2 ⟨x, hx⟩] at k9; cases k9
        · rw [BMap.contains_iff.2 ⟨x, hx⟩] at k10; cases k10
    · exact (Bool.false_ne_true h).elim
  · exact (Bool.false_ne_true h).elim

/-- Whether party 1 reports evidence against party 2 under the name of party 3, with a hash only party 2 has signed. -/
def mixMisquoting {P : Proto toy} (n : MixNet P) : Bool :=
  match n.node (1 : U8), n.wire[3]? with
  | some (.seq (.done (.ok rep))), some q =>
    match rep.provable.get? (3 : U8) with
    | some ⟨g, .mismatched g' w h⟩ =>
      decide (q.src = (2 : U8)) && isTwo g && isTwo g' && decide (h = q.message.normal.toSignedHash toy) &&
        (match h.verify toy (1 : U8) with | .ok _ => false | .error _ => true)
    | _ => false
  | _, _ => false

/-- The hypotheses of `C92_accused` and `C92_kind_confusion` can be met, and it is the second case that occurs. -/
example : ∃ (n : MixNet (demo true 2).wrap) (m : MixState (demo true 2).wrap) (rep : Report (demo true 2).wrap) (ev : Evidence toy),
    NoEchoErr (demo true 2).wrap ∧
      MixOpenSteps (demoGroup true 2 (BSet.ofList [1, 2, 3])) (fun i : U8 => i ∈ ([1, 2] : List U8)) mixPar2 MixNet.init n ∧
      n.node (1 : U8) = some m ∧ m.report = some (.ok rep) ∧ rep.provable.get? (3 : U8) = some ev ∧ ev.guilty = (2 : U8) ∧
      (∀ p w, ev.body = .mismatched ev.guilty p w → HashUnforged (fun i : U8 => i ∈ ([1, 2] : List U8)) [9] n.wire w) := by
  have h : mixMisquoting (mixOpenDemo (mixOpenBegin 3 ++ popenDemo 3 1 ⟨1, [], true⟩ none none (some framingPack) ++ [.tick (1 : U8)])
      MixNet.init) = true := by
    decide +kernel
  have r1 := mixOpenDemo_steps (mixOpenBegin 3 ++ popenDemo 3 1 ⟨1, [], true⟩ none none (some framingPack) ++ [.tick (1 : U8)])
    MixNet.init
  generalize mixOpenDemo (mixOpenBegin 3 ++ popenDemo 3 1 ⟨1, [], true⟩ none none (some framingPack) ++ [.tick (1 : U8)])
    MixNet.init = n at h r1
  unfold mixMisquoting at h
  split at h
  · rename_i rep q h1 h2
    split at h
    · rename_i g g' w x h3
      simp only [isTwo, Bool.and_eq_true, decide_eq_true_eq] at h
      obtain ⟨⟨⟨⟨k1, k2⟩, k3⟩, k4⟩, k5⟩ := h
      subst k2 k3 k4
      refine ⟨n, _, rep, _, typed_noEchoErr _, r1, h1, rfl, h3, rfl, ?_⟩
      intro p y hy
      simp only [EvBody.mismatched.injEq, true_and] at hy
      obtain ⟨-, rfl⟩ := hy
      intro k hk hs _
      rcases one_or_two k hk with rfl | rfl
      · rw [(hash_verify_ok (u := ())).2 hs] at k5
        cases k5
      · exact ⟨q, List.mem_of_getElem? h2, k1, .inr (.inl ⟨rfl, rfl⟩)⟩
    · exact (Bool.false_ne_true h).elim
  · exact (Bool.false_ne_true h).elim

/-- Party 66 uses `par_run_session`. -/
def mixPar66 (i : U8) : Bool := decide (i = 66)

/-- Party 1, using `run_session`, has sent party 66, using `par_run_session`, a message the latter refuses. -/
def mixRefusedRun : List (POpenAct toy) :=
  [.start (1 : U8), .start (66 : U8), .forward 0 (66 : U8) (1 : U8), .complete (66 : U8) 0, .tick (66 : U8)]

/-- Whether party 66 reports evidence against party 1, not of a mismatch. -/
def mixRefusing {P : Proto toy} (n : MixNet P) : Bool :=
  match n.node (66 : U8) with
  | some (.par (.done (.ok rep))) =>
    match rep.provable.get? (1 : U8) with
    | some ⟨_, .mismatched _ _ _⟩ => false
    | some ev => isOne ev.guilty
    | none => false
  | _ => false

/-- The hypotheses of `C92_if_kinds_were_signed` can be met. -/
example : ∃ (n : MixNet (demo true 2).wrap) (m : MixState (demo true 2).wrap) (rep : Report (demo true 2).wrap) (ev : Evidence toy),
    MixOpenSteps (demoGroup true 2 (BSet.ofList [1, 66])) (fun i : U8 => i ∈ ([1, 66] : List U8)) mixPar66 MixNet.init n ∧
      n.node (66 : U8) = some m ∧ m.report = some (.ok rep) ∧ rep.provable.get? (1 : U8) = some ev ∧ ev.guilty = (1 : U8) ∧
      (∀ p w, ev.body = .mismatched ev.guilty p w → EchoHashUnforged (fun i : U8 => i ∈ ([1, 66] : List U8)) [9] n.wire w) := by
  have h : mixRefusing (mixOpenRun (0 : Nat) (demoGroup true 2 (BSet.ofList [1, 66])) ([1, 66] : List U8) mixPar66 mixRefusedRun
      MixNet.init) = true := by
    decide +kernel
  have r1 := mixOpenRun_steps (sp := toy) (0 : Nat) (g := demoGroup true 2 (BSet.ofList [1, 66])) (par := mixPar66)
    (H := ([1, 66] : List U8)) mixRefusedRun (n₀ := MixNet.init) .refl
  generalize mixOpenRun (sp := toy) (0 : Nat) (demoGroup true 2 (BSet.ofList [1, 66])) ([1, 66] : List U8) mixPar66 mixRefusedRun
    MixNet.init = n at h r1
  unfold mixRefusing at h
  split at h
  · rename_i rep h1
    split at h
    · exact (Bool.false_ne_true h).elim
    · rename_i ev h2 h3
      have h := isOne_spec h
      refine ⟨n, _, rep, ev, r1, h1, rfl, h3, h, ?_⟩
      intro p w hw
      obtain ⟨g, b⟩ := ev
      simp only at hw
      subst hw
      exact absurd rfl (h2 _ _ _ _)
    · exact (Bool.false_ne_true h).elim
  · exact (Bool.false_ne_true h).elim

end Manul
