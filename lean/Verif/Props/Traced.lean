import Verif.Lemmas.Traced
import Verif.Props.Bans

/-!
# C79: where the evidence in a report comes from
-/

namespace Manul

variable {sp : SP} {P : Proto sp} {s₀ : Session P} {l : List (Delivery P)}

/-- C79: all evidence listed under a party in a report is about a message given to the session in the name of this party, which the
party has signed for a round of the session, and which this round has refused; what the evidence contains besides has been given to
the session in the same way, in this or an earlier round, or is what the session has broadcast itself. -/
theorem C79_traced (mt : sp.MetaTotal) (mi : MainIds P) (ne : NoEchoErr P) {rng : sp.Rng} {sid : Bytes} {signer : sp.Signer}
    {ep : EntryPoint P} (h0 : Session.new rng sid signer ep = .ok s₀) {rep : Report P} (h : ReachVia s₀ l (.done (.ok rep)))
    {x : sp.Id} {ev : Evidence sp} (hx : rep.provable.get? x = some ev) : Traced (InRun s₀) s₀ l x ev :=
  (reachVia_traced mt mi ne h0 h).2 rep rfl x ev hx

/-- C79: the same while the session is running. -/
theorem C79_traced_running (mt : sp.MetaTotal) (mi : MainIds P) (ne : NoEchoErr P) {rng : sp.Rng} {sid : Bytes} {signer : sp.Signer}
    {ep : EntryPoint P} (h0 : Session.new rng sid signer ep = .ok s₀) {s : Session P} {a : Accum P}
    (h : ReachVia s₀ l (.running s a)) {x : sp.Id} {ev : Evidence sp}
    (hx : a.provable.get? x = some ev ∨ s.transcript.provable.get? x = some ev) : Traced (InRun s₀) s₀ l x ev := by
  have hi := (reachVia_traced mt mi ne h0 h).1 s a rfl
  rcases hx with hx | hx
  · exact hi.provable x ev hx
  · exact hi.transcript.provable x ev hx

/-- C79: no evidence is listed under a party that has signed no message given to the session. -/
theorem C79_silent (mt : sp.MetaTotal) (mi : MainIds P) (ne : NoEchoErr P) {rng : sp.Rng} {sid : Bytes} {signer : sp.Signer}
    {ep : EntryPoint P} (h0 : Session.new rng sid signer ep = .ok s₀) {rep : Report P} (h : ReachVia s₀ l (.done (.ok rep)))
    {x : sp.Id} (hx : ∀ d ∈ l, d.sender = x → ∀ rid, ¬ Authentic x s₀.sessionId rid d.message.direct d.message.echo d.message.normal) :
    rep.provable.get? x = none := by
  cases hg : rep.provable.get? x with
  | none => rfl
  | some ev =>
    exfalso
    obtain ⟨s, m, err, ⟨d, hd, h1, rfl⟩, -, h2, -⟩ := (C79_traced mt mi ne h0 h hg).refused
    exact hx d hd h1 _ h2

/-- C79: every signed part that occurs in the evidence was given to the session, signed by the party in whose name it was given, or
has been broadcast by the session itself. -/
theorem C79_held (mt : sp.MetaTotal) (mi : MainIds P) (ne : NoEchoErr P) {rng : sp.Rng} {sid : Bytes} {signer : sp.Signer}
    {ep : EntryPoint P} (h0 : Session.new rng sid signer ep = .ok s₀) {rep : Report P} (h : ReachVia s₀ l (.done (.ok rep)))
    {x : sp.Id} {ev : Evidence sp} (hx : rep.provable.get? x = some ev) {k : PartKind} {p : SignedPart k} (hp : ev.body.Holds k p) :
    ∃ y rid, PartOf (InRun s₀) s₀ l y rid k p :=
  (C79_traced mt mi ne h0 h hx).held hp

/-- C79: evidence listed under a party accuses it, or another party whose broadcast, as given to the session, is not the one whose
hash the party under which it is listed has passed on with the signature of the accused. -/
theorem C79_accused (mt : sp.MetaTotal) (mi : MainIds P) (ne : NoEchoErr P) {rng : sp.Rng} {sid : Bytes} {signer : sp.Signer}
    {ep : EntryPoint P} (h0 : Session.new rng sid signer ep = .ok s₀) {rep : Report P} (h : ReachVia s₀ l (.done (.ok rep)))
    {x : sp.Id} {ev : Evidence sp} (hx : rep.provable.get? x = some ev) :
    ev.guilty = x ∨ ∃ w hh main, ev.body = .mismatched ev.guilty w hh ∧ EchoGiven (InRun s₀) s₀ l ev.guilty main w ∧
      HashSigned ev.guilty hh ∧ hh.metadata = w.metadata ∧ hh.hash ≠ sp.partHash w.part :=
  (C79_traced mt mi ne h0 h hx).accused

/-- C79: a session holds evidence against the party executing it, and listed under another one, only if this party has signed the
hash of something else than what the session has broadcast, for the same round of the same session. -/
theorem C79_self (mt : sp.MetaTotal) (mi : MainIds P) (ne : NoEchoErr P) {rng : sp.Rng} {sid : Bytes} {signer : sp.Signer}
    {ep : EntryPoint P} (h0 : Session.new rng sid signer ep = .ok s₀) {rep : Report P} (h : ReachVia s₀ l (.done (.ok rep)))
    {x : sp.Id} {ev : Evidence sp} (hx : rep.provable.get? x = some ev) (hg : ev.guilty = s₀.me) (hne : x ≠ s₀.me) :
    ∃ w hh main, ev.body = .mismatched s₀.me w hh ∧ OwnEcho (InRun s₀) s₀ s₀.me main w ∧ HashSigned s₀.me hh ∧ hh.metadata = w.metadata ∧
      hh.hash ≠ sp.partHash w.part := by
  rcases C79_accused mt mi ne h0 h hx with h1 | ⟨w, hh, main, h1, h2, h3⟩
  · exact absurd (h1.symm.trans hg) hne
  · rw [hg] at h1 h2 h3
    rcases h2 with ⟨h2, -⟩ | h2
    · exact absurd rfl h2
    · exact ⟨w, hh, main, h1, h2, h3⟩

/-! ## Examples -/

/-- The hypotheses can be met, by evidence about party 3 listed under party 2. -/
example : ∃ (s₀ : Session (demo true 255).wrap) (l : List (Delivery (demo true 255).wrap)) (rep : Report (demo true 255).wrap)
    (ev : Evidence toy), toy.MetaTotal ∧ MainIds (demo true 255).wrap ∧ NoEchoErr (demo true 255).wrap ∧
      demoSession true 255 [1, 2, 3] 1 = .ok s₀ ∧ ReachVia s₀ l (.done (.ok rep)) ∧ rep.provable.get? (2 : U8) = some ev ∧
      ∃ w e, ev.body = .mismatched (3 : U8) w e := by
  obtain ⟨s, rep, ev, h0, hr, h1, -, h2, -⟩ := C29_misfiled_violation
  obtain ⟨l, hl⟩ := reach_via hr
  exact ⟨s, l, rep, ev, toy_metaTotal, demo_mainIds _ _, typed_noEchoErr _, h0, hl, h1, h2⟩

/-- Party 2 of the three echoes a broadcast of party 1, made with the key of party 1, that party 1 has not sent in this session. -/
def ownEquivocation : List Act :=
  [.msg ⟨2, 2, [9], RoundId.new 1, 1, some [5], some [2], some [7]⟩,
    .msg ⟨3, 3, [9], RoundId.new 1, 1, some [5], some [3], some [7]⟩, .tick,
    .msg ⟨2, 2, [9], ⟨1, [], true⟩, 1, none, none, some (demoPack (RoundId.new 1) [(1, [4]), (3, [3])])⟩, .cancel]

/-- The hypotheses of `C79_self` can be met. -/
example : ∃ (s₀ : Session (demo true 255).wrap) (l : List (Delivery (demo true 255).wrap)) (rep : Report (demo true 255).wrap)
    (ev : Evidence toy), demoSession true 255 [1, 2, 3] 1 = .ok s₀ ∧ ReachVia s₀ l (.done (.ok rep)) ∧
      rep.provable.get? (2 : U8) = some ev ∧ ev.guilty = s₀.me ∧ (2 : U8) ≠ s₀.me := by
  have h : onOk (viaRun true 255 ownEquivocation) (fun r => r.2.2.isReport (fun rep => hasEvidence rep 2 (fun ev =>
      !differs ev.guilty r.1.me && differs (2 : U8) r.1.me))) = true := by
    decide +kernel
  obtain ⟨⟨s₀, l, st⟩, h1, h2⟩ := onOk_iff.1 h
  obtain ⟨h3, h4⟩ := viaRun_ok h1
  obtain ⟨rep, rfl, h5⟩ := isReport_iff.1 h2
  obtain ⟨ev, h6, h7⟩ := hasEvidence_iff.1 h5
  simp only [Bool.and_eq_true, Bool.not_eq_true'] at h7
  exact ⟨s₀, l, rep, ev, h3, h4, h6, same_of_differs h7.1, differs_ne h7.2⟩

/-- The hypotheses can be met by evidence of a protocol error, which contains messages of two rounds and of all parties. -/
example : ∃ (s₀ : Session demoReq.wrap) (l : List (Delivery demoReq.wrap)) (rep : Report demoReq.wrap) (ev : Evidence toy)
    (pe : ProtocolEvidence toy), toy.MetaTotal ∧ MainIds demoReq.wrap ∧ NoEchoErr demoReq.wrap ∧
      Session.new (sp := toy) (0 : Nat) [9] (1 : U8) demoReqEntry = .ok s₀ ∧ ReachVia s₀ l (.done (.ok rep)) ∧
      rep.provable.get? (2 : U8) = some ev ∧ ev.body = .protocol pe ∧ (pe.direct.isSome = true) ∧
      (pe.otherEchos.get? (RoundId.new 1)).isSome = true ∧ (pe.normals.get? (RoundId.new 1)).isSome = true := by
  have h : onOk (scriptRun demoReqEntry 1
      [.msg ⟨2, 2, [9], RoundId.new 1, 1, some [5], some [2], some [7]⟩,
        .msg ⟨3, 3, [9], RoundId.new 1, 1, some [5], some [3], some [7]⟩, .tick,
        .msg ⟨2, 2, [9], ⟨1, [], true⟩, 1, none, none, some (demoPack (RoundId.new 1) [(1, [1]), (3, [3])])⟩,
        .msg ⟨3, 3, [9], ⟨1, [], true⟩, 1, none, none, some (demoPack (RoundId.new 1) [(1, [1]), (2, [2])])⟩, .tick,
        .msg ⟨2, 2, [9], RoundId.new 2, 1, some [66], some [2], some [7]⟩, .cancel])
      (fun r => r.2.isReport (fun rep => hasEvidence rep 2 (fun ev => match ev.body with
        | .protocol pe => pe.direct.isSome && (pe.otherEchos.get? (RoundId.new 1)).isSome &&
            (pe.normals.get? (RoundId.new 1)).isSome
        | _ => false))) = true := by
    decide +kernel
  obtain ⟨s, st, h0, hr, hk⟩ := onOk_script h
  obtain ⟨rep, rfl, hk⟩ := isReport_iff.1 hk
  obtain ⟨ev, h1, h2⟩ := hasEvidence_iff.1 hk
  obtain ⟨l, hl⟩ := reach_via hr
  split at h2
  · rename_i pe hb
    simp only [Bool.and_eq_true] at h2
    exact ⟨s, l, rep, ev, pe, toy_metaTotal, demo_mainIds true 255, typed_noEchoErr _, h0, hl, h1, hb, h2.1.1, h2.1.2, h2.2⟩
  · cases h2

end Manul
