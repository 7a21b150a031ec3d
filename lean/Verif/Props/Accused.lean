import Verif.Spec.Accused
import Verif.Props.Equivocation
import Verif.Props.EvidenceComplete
import Verif.Lemmas.DeviateAcc

/-!
# C73: How a party following the protocol can be accused

As in `Verif.Props.Open`, an adversary controls everything but the parties in `H`.
-/

namespace Manul

variable {sp : SP} {P : Proto sp}

/-- What is recorded accuses the sender of the message, unless it is a mismatch found in an echo message. -/
theorem Recorded.guilty {t : Transcript sp} {p : Processed P} {ev : Evidence sp} (h : Recorded t p ev) :
    ev.guilty = p.message.sender ∨ ∃ k w x, p.result = .error (.echo (.mismatched k w x)) ∧ ev = ⟨k, .mismatched k w x⟩ := by
  cases h with
  | direct _ => exact .inl rfl
  | echoBroadcast _ => exact .inl rfl
  | normal _ => exact .inl rfl
  | protocol _ hev => exact .inl (newProvableError_accuses hev).1
  | @echo e he =>
    cases e with
    | invalidEcho k => exact .inl rfl
    | mismatched k w x => exact .inr ⟨k, w, x, he, rfl⟩

theorem OpenInv.accused {g : Group P} {H : sp.Id → Prop} {V : sp.Id → List (Session P)} {n : Net P} (h : OpenInv g H V n)
    (rt : sp.EchoRoundTrip) (mt : sp.MetaTotal) (hstrict : EchoStrict P) (hmi : MainIds P) (hac : Acyclic P)
    (hne : NoEchoErr P) (hkey : ∀ i, H i → sp.verifyingKey (g.signer i) = i) {i x : sp.Id} (hi : H i) {ev : Evidence sp}
    (hg : H ev.guilty) (hr : RecordedIn (Unforged H g.sid n.wire) (V i) x ev) :
    (x = ev.guilty ∧ Refused g i x) ∨ (¬ H x ∧ ∃ s ∈ V ev.guilty, ∃ w, Misquoted g ev.guilty s w ev) := by
  by_cases hx : H x
  · refine .inl ?_
    have href : Refused g i x := by
      rcases h.blame rt mt hstrict hmi hac hkey hi hx hr with ⟨k, rid, h1, w, w', h2, -⟩ | h1
      · rw [h2] at hg
        exact absurd hg h1
      · exact h1
    refine ⟨?_, href⟩
    obtain ⟨s, hs, vm, hvm, hu, hau, hrec⟩ := hr
    rcases hrec.guilty with h1 | ⟨k, w, y, h1, h2⟩
    · rw [h1]
      exact hvm.symm
    · have hres : (s.process vm).result = s.round.receive x vm.dyn := by
        rw [← hvm]
        rfl
      rw [hres] at h1
      cases hround : s.round with
      | main r =>
        rw [hround] at h1
        simp only [SRound.receive] at h1
        split at h1
        · rename_i err herr
          cases h1
          exact absurd herr (hne _ _ _ _)
        · cases h1
      | echo e =>
        obtain ⟨rng, s₀, tr, c, hnew, hv, -⟩ := h.visit hs
        obtain ⟨hp0, hsid0, -, -, hm0⟩ := new_proper hnew
        rw [(visits_inv hp0 hm0 hv).sessionId.trans hsid0] at hau
        obtain ⟨s', -, e', -, -, hver⟩ := h.verdict rt mt hstrict hmi hac hkey hi hx hs hround hu hau
        rw [show (⟨vm.echo.part, vm.normal.part, vm.direct.part⟩ : DynMsg) = vm.dyn from rfl, ← hres] at hver
        obtain ⟨k', h3, w1, w2, h4, -⟩ := hver.unique hrec
        rw [h4] at hg
        exact absurd hg h3
  · refine .inr ⟨hx, ?_⟩
    obtain ⟨s, hs, vm, hvm, hu, hau, hrec⟩ := hr
    rcases hrec.guilty with h1 | ⟨k, w, y, h1, h2⟩
    · rw [h1] at hg
      exact absurd (hvm ▸ hg) hx
    · have hres : (s.process vm).result = s.round.receive x vm.dyn := by
        rw [← hvm]
        rfl
      rw [hres] at h1
      cases hround : s.round with
      | main r =>
        rw [hround] at h1
        simp only [SRound.receive] at h1
        split at h1
        · rename_i err herr
          cases h1
          exact absurd herr (hne _ _ _ _)
        · cases h1
      | echo e =>
        rw [hround] at h1
        simp only [SRound.receive] at h1
        have h1' : e.receive x vm.dyn = .error (.echo (.mismatched k w y)) := by
          cases hrc : e.receive x vm.dyn with
          | ok u => rw [hrc] at h1; cases h1
          | error err =>
            rw [hrc] at h1
            simp only [Except.error.injEq] at h1
            rw [h1]
        obtain ⟨pack, k', h', p, -, -, hget, ⟨herr, -⟩ | ⟨herr, hsig, hmeta, hhash⟩⟩ := receive_echoErr h1'
        · cases herr
        · cases herr
          subst h2
          obtain ⟨rng, s₀, tr, c, hnew, hv, -⟩ := h.visit hs
          obtain ⟨hp0, hsid0, -, -, hm0⟩ := new_proper hnew
          have ie := visits_einv hp0 hm0 hv hround
          have hsid : s.sessionId = g.sid := ie.sessionId.trans hsid0
          have hpm : w.metadata = ⟨g.sid, (P.transition e.main).id⟩ := by
            by_cases hk : k = s.me
            · obtain ⟨q, rng, hq, hn⟩ := ie.own
              rw [hk, hq] at hget
              simp only [Option.some.injEq] at hget
              subst hget
              rw [(signed_part hn).2, hsid]
            · rw [(ie.others k hk w hget).1.1, hsid]
          obtain ⟨s1, hs1, hid1, hpart⟩ := h.broadcast hkey hi hs hround hg hget
          obtain ⟨rng1, s₀1, tr1, c1, hnew1, hv1, -⟩ := h.visit hs1
          exact ⟨s1, hs1, y, w, ⟨rng1, s₀1, tr1, c1, hnew1, hv1⟩, rfl, hpart, by rw [hpm, hid1], hsig,
            by rw [hmeta, hpm, hid1], by rw [← hpart]; exact hhash⟩

/-- C73: evidence in the report of a party following the protocol that accuses a party following the protocol is either filed
under the name of the accused, who has then sent a message in a round that is not an echo round, which was refused; or it is
filed under the name of somebody who does not follow the protocol, and has the echo broadcast the accused has made beside
another hash signed by the accused for the same round. -/
theorem C73_accused (rt : sp.EchoRoundTrip) (mt : sp.MetaTotal) (hstrict : EchoStrict P) (hmi : MainIds P) (hac : Acyclic P)
    (hne : NoEchoErr P) {g : Group P} {H : sp.Id → Prop} (hkey : ∀ i, H i → sp.verifyingKey (g.signer i) = i) {n : Net P}
    (h : OpenSteps g H Net.init n) {i x : sp.Id} (hi : H i) {rep : Report P} (hn : n.node i = some (.done (.ok rep)))
    {ev : Evidence sp} (hev : rep.provable.get? x = some ev) (hg : H ev.guilty) :
    (x = ev.guilty ∧ Refused g i x) ∨ (¬ H x ∧ ∃ s w, Misquoted g ev.guilty s w ev) := by
  obtain ⟨V, -, hinv⟩ := (OpenInv.init g H).steps h
  rcases hinv.accused rt mt hstrict hmi hac hne hkey hi hg (hinv.report i rep hn x ev hev) with h1 | ⟨h1, s, -, w, h2⟩
  · exact .inl h1
  · exact .inr ⟨h1, s, w, h2⟩

/-- C73: if the signed hash is not forged, the other hash is that of the normal broadcast or of a direct message of the accused in
the same round. -/
theorem C73_kind_confusion (rt : sp.EchoRoundTrip) (mt : sp.MetaTotal) (hstrict : EchoStrict P) (hmi : MainIds P)
    (hac : Acyclic P) (hne : NoEchoErr P) {g : Group P} {H : sp.Id → Prop}
    (hkey : ∀ i, H i → sp.verifyingKey (g.signer i) = i) {n : Net P} (h : OpenSteps g H Net.init n)
    {i x : sp.Id} (hi : H i) {rep : Report P} (hn : n.node i = some (.done (.ok rep))) {ev : Evidence sp}
    (hev : rep.provable.get? x = some ev) (hg : H ev.guilty)
    (hunf : ∀ p w, ev.body = .mismatched ev.guilty p w → HashUnforged H g.sid n.wire w) :
    (x = ev.guilty ∧ Refused g i x) ∨
      (¬ H x ∧ ∃ s w, Misquoted g ev.guilty s w ev ∧ ∃ q ∈ n.wire, OwnPacket g ev.guilty s.transition.id q ∧
        q.message.echo = s.echo ∧
        (w.hash = sp.partHash q.message.normal.part ∨ w.hash = sp.partHash q.message.direct.part)) := by
  obtain ⟨V, -, hinv⟩ := (OpenInv.init g H).steps h
  rcases hinv.accused rt mt hstrict hmi hac hne hkey hi hg (hinv.report i rep hn x ev hev) with h1 | ⟨h1, s, hs, w, h2⟩
  · exact .inl h1
  · refine .inr ⟨h1, s, w, h2, ?_⟩
    obtain ⟨p, hvis, hev', -, -, hsig, hmeta, hhash⟩ := h2
    obtain ⟨q, hq, hsrc, hor⟩ := hunf p w (congrArg Evidence.body hev') _ hg hsig (by rw [hmeta])
    obtain ⟨s', hs', hmade, -, -, -, -, m1, m2, m3⟩ := hinv.own hq
    rw [hsrc] at hs'
    have hid : s'.transition.id = s.transition.id := by
      rcases hor with ⟨hm, -⟩ | ⟨hm, -⟩ | ⟨hm, -⟩
      · rw [hm, hmeta] at m1
        simp only [Metadata.mk.injEq] at m1
        exact m1.2.symm
      · rw [hm, hmeta] at m2
        simp only [Metadata.mk.injEq] at m2
        exact m2.2.symm
      · rw [hm, hmeta] at m3
        simp only [Metadata.mk.injEq] at m3
        exact m3.2.symm
    have := hinv.unique hmi hac s' hs' s hs hid
    subst this
    refine ⟨q, hq, ⟨hsrc, (hinv.sent q hq).1, s', hvis, rfl, hmade⟩, hmade.echo, ?_⟩
    rcases hor with ⟨-, hh⟩ | ⟨-, hh⟩ | ⟨-, hh⟩
    · rw [hmade.echo] at hh
      exact absurd hh.symm hhash
    · exact .inl hh.symm
    · exact .inr hh.symm

/-- C73: so if signatures told the kind of what is signed, parties following the protocol would only be accused over messages
they have sent that were refused. -/
theorem C73_if_kinds_were_signed (rt : sp.EchoRoundTrip) (mt : sp.MetaTotal) (hstrict : EchoStrict P) (hmi : MainIds P)
    (hac : Acyclic P) (hne : NoEchoErr P) {g : Group P} {H : sp.Id → Prop}
    (hkey : ∀ i, H i → sp.verifyingKey (g.signer i) = i) {n : Net P} (h : OpenSteps g H Net.init n)
    {i x : sp.Id} (hi : H i) {rep : Report P} (hn : n.node i = some (.done (.ok rep))) {ev : Evidence sp}
    (hev : rep.provable.get? x = some ev) (hg : H ev.guilty)
    (hunf : ∀ p w, ev.body = .mismatched ev.guilty p w → EchoHashUnforged H g.sid n.wire w) :
    x = ev.guilty ∧ Refused g i x := by
  obtain ⟨V, -, hinv⟩ := (OpenInv.init g H).steps h
  rcases hinv.accused rt mt hstrict hmi hac hne hkey hi hg (hinv.report i rep hn x ev hev) with h1 | ⟨h1, s, hs, w, h2⟩
  · exact h1
  · obtain ⟨p, hvis, hev', -, -, hsig, hmeta, hhash⟩ := h2
    obtain ⟨q, hq, hsrc, hm, hh⟩ := hunf p w (congrArg Evidence.body hev') _ hg hsig (by rw [hmeta])
    obtain ⟨s', hs', hmade, -, -, -, -, m1, -, -⟩ := hinv.own hq
    rw [hsrc] at hs'
    rw [hm, hmeta] at m1
    simp only [Metadata.mk.injEq] at m1
    have := hinv.unique hmi hac s' hs' s hs m1.2.symm
    subst this
    rw [hmade.echo] at hh
    exact absurd hh.symm hhash

end Manul

/-! ## Examples -/

namespace Manul

/-- Whether party 1 reports evidence against party 2 under the name of party 3, with a hash only party 2 has signed. -/
def misquoting {P : Proto toy} (n : Net P) : Bool :=
  match n.node (1 : U8), n.wire[3]? with
  | some (.done (.ok rep)), some q =>
    match rep.provable.get? (3 : U8) with
    | some ⟨g, .mismatched g' w h⟩ =>
      decide (q.src = (2 : U8)) && isTwo g && isTwo g' && decide (h = q.message.normal.toSignedHash toy) &&
        (match h.verify toy (1 : U8) with | .ok _ => false | .error _ => true)
    | _ => false
  | _, _ => false

theorem one_or_two (k : U8) (h : k ∈ ([1, 2] : List U8)) : k = 1 ∨ k = 2 := by simpa using h

/-- The hypotheses of `C73_accused` and `C73_kind_confusion` can be met, and it is the second case that occurs. -/
example : ∃ (n : Net (demo true 2).wrap) (rep : Report (demo true 2).wrap) (ev : Evidence toy),
    toy.EchoRoundTrip ∧ toy.MetaTotal ∧ EchoStrict (demo true 2).wrap ∧ MainIds (demo true 2).wrap ∧ Acyclic (demo true 2).wrap ∧
      NoEchoErr (demo true 2).wrap ∧
      OpenSteps (demoGroup true 2 (BSet.ofList [1, 2, 3])) (fun i : U8 => i ∈ ([1, 2] : List U8)) Net.init n ∧
      n.node (1 : U8) = some (.done (.ok rep)) ∧ rep.provable.get? (3 : U8) = some ev ∧ ev.guilty = (2 : U8) ∧
      (∀ p w, ev.body = .mismatched ev.guilty p w → HashUnforged (fun i : U8 => i ∈ ([1, 2] : List U8)) [9] n.wire w) := by
  have h : misquoting (openRun (0 : Nat) (demoGroup true 2 (BSet.ofList [1, 2, 3])) ([1, 2] : List U8) openFraming Net.init) = true := by
    decide +kernel
  have r1 := openRun_steps (sp := toy) (0 : Nat) (g := demoGroup true 2 (BSet.ofList [1, 2, 3])) (H := ([1, 2] : List U8))
    openFraming (n₀ := Net.init) .refl
  generalize openRun (sp := toy) (0 : Nat) (demoGroup true 2 (BSet.ofList [1, 2, 3])) ([1, 2] : List U8) openFraming Net.init = n
    at h r1
  unfold misquoting at h
  split at h
  · rename_i rep q h1 h2
    split at h
    · rename_i g g' w x h3
      simp only [isTwo, Bool.and_eq_true, decide_eq_true_eq] at h
      obtain ⟨⟨⟨⟨k1, k2⟩, k3⟩, k4⟩, k5⟩ := h
      subst k2 k3 k4
      refine ⟨n, rep, _, toy_echoRoundTrip, toy_metaTotal, demo_strict true 2, demo_mainIds true 2, demo_acyclic true 2,
        typed_noEchoErr _, r1, h1, h3, rfl, ?_⟩
      intro p y hy
      simp only [EvBody.mismatched.injEq, true_and] at hy
      obtain ⟨-, rfl⟩ := hy
      intro k hk hs _
      rcases one_or_two k hk with rfl | rfl
      · rw [(hash_verify_ok (u := ())).2 hs] at k5
        cases k5
      · exact ⟨q, List.mem_of_getElem? h2, k1, .inr (.inl ⟨rfl, rfl⟩)⟩
    · exact (Bool.false_ne_true h).elim
  · exact (Bool.false_ne_true h).elim

/-- Party 66 gets the message of party 1, which it cannot read. -/
def openRefused : List (OpenAct toy) :=
  [.start (1 : U8), .start (66 : U8), .forward 0 (66 : U8) (1 : U8), .tick (66 : U8)]

/-- Whether it is party 1. -/
def isOne (g : U8) : Bool := decide (g = 1)

theorem isOne_spec {g : U8} (h : isOne g = true) : g = 1 := of_decide_eq_true h

/-- Whether party 66 reports evidence against party 1, not of a mismatch. -/
def refusing {P : Proto toy} (n : Net P) : Bool :=
  match n.node (66 : U8) with
  | some (.done (.ok rep)) =>
    match rep.provable.get? (1 : U8) with
    | some ⟨_, .mismatched _ _ _⟩ => false
    | some ev => isOne ev.guilty
    | none => false
  | _ => false

/-- The hypotheses of `C73_if_kinds_were_signed` can be met. -/
example : ∃ (n : Net (demo true 2).wrap) (rep : Report (demo true 2).wrap) (ev : Evidence toy),
    OpenSteps (demoGroup true 2 (BSet.ofList [1, 66])) (fun i : U8 => i ∈ ([1, 66] : List U8)) Net.init n ∧
      n.node (66 : U8) = some (.done (.ok rep)) ∧ rep.provable.get? (1 : U8) = some ev ∧ ev.guilty = (1 : U8) ∧
      (∀ p w, ev.body = .mismatched ev.guilty p w → EchoHashUnforged (fun i : U8 => i ∈ ([1, 66] : List U8)) [9] n.wire w) := by
  have h : refusing (openRun (0 : Nat) (demoGroup true 2 (BSet.ofList [1, 66])) ([1, 66] : List U8) openRefused Net.init) = true := by
    decide +kernel
  have r1 := openRun_steps (sp := toy) (0 : Nat) (g := demoGroup true 2 (BSet.ofList [1, 66])) (H := ([1, 66] : List U8))
    openRefused (n₀ := Net.init) .refl
  generalize openRun (sp := toy) (0 : Nat) (demoGroup true 2 (BSet.ofList [1, 66])) ([1, 66] : List U8) openRefused Net.init = n
    at h r1
  unfold refusing at h
  split at h
  · rename_i rep h1
    split at h
    · cases h
    · rename_i ev hnot h3
      refine ⟨n, rep, ev, r1, h1, h3, isOne_spec h, ?_⟩
      intro p w hb
      obtain ⟨g, b⟩ := ev
      simp only at hb
      subst hb
      exact absurd rfl (hnot _ _ _ _)
    · cases h
  · cases h

end Manul
