import Verif.Lemmas.Echo
import Verif.Lemmas.Toy
import Verif.Lemmas.Scenario
import Verif.Lemmas.Honest

/-!
# The echo round: C17, C18, C19, C20
-/

namespace Manul

variable {sp : SP} {P : Proto sp}

/-! ## C18 -/

theorem decodes_unique {p : Part .normal} {a b : EchoPack sp} (ha : Decodes p a) (hb : Decodes p b) : a = b := by
  rw [decodes_iff] at ha hb
  rw [ha] at hb
  simpa using hb

/-- The table of the echo round: given the broadcasts of all the expected parties, `receive_message` returns exactly what
the table says, for any sender and message. -/
theorem C18_table (mt : sp.MetaTotal) (e : EchoRd P) (hc : e.Complete) (sender : sp.Id) (m : DynMsg)
    (r : Except (RecvErr sp) Unit) : e.receive sender m = r ↔ EchoRow e sender m r := by
  have key : ∀ r, EchoRow e sender m r → e.receive sender m = r := by
    intro r h
    cases h with
    | echoPart h => simp [EchoRd.receive, Part.isNone, h]
    | directPart h1 h2 => simp [EchoRd.receive, Part.isNone, h1, h2]
    | undecodable h1 h2 h3 =>
      unfold EchoRd.receive
      cases hd : Evidence.deserializePack sp m.normal with
      | none => simp [Part.isNone, h1, h2]
      | some pack => exact absurd ⟨pack, decodes_iff.2 hd⟩ h3
    | @missing pack k h1 h2 h3 h4 h5 h6 =>
      rw [receive_pack h1 h2 h3]
      unfold EchoRd.receivePack
      rw [if_pos]
      by_contra hne
      obtain ⟨h, hh⟩ := missing_iff.1 (by simpa using hne) k h4 h5
      rw [h6] at hh
      simp at hh
    | @extra pack k h h1 h2 h3 h4 h5 h6 =>
      rw [receive_pack h1 h2 h3]
      unfold EchoRd.receivePack
      simp only [missing_iff.2 h4]
      rw [if_neg (by simp), if_pos]
      by_contra hne
      obtain ⟨hx, hy⟩ := extra_iff.1 (by simpa using hne) k h h5
      rcases h6 with h6 | h6
      · simp [hx] at h6
      · exact hy h6
    | @invalid pack k h h1 h2 h3 h4 h5 h6 h7 =>
      rw [receive_pack h1 h2 h3, receivePack_exact h4]
      exact checkEchos_error pack.sorted (BMap.mem_toList.2 h5) ((checkEcho_bad mt).1 h6)
        (fun k' h' hk hm => h7 k' h' hk (BMap.mem_toList.1 hm))
    | @mismatched pack k h p h1 h2 h3 h4 h5 h6 h7 =>
      rw [receive_pack h1 h2 h3, receivePack_exact h4]
      exact checkEchos_error pack.sorted (BMap.mem_toList.2 h5) ((checkEcho_bad mt).2 p h6)
        (fun k' h' hk hm => h7 k' h' hk (BMap.mem_toList.1 hm))
    | @accepted pack h1 h2 h3 h4 h5 =>
      rw [receive_pack h1 h2 h3, receivePack_exact h4]
      exact checkEchos_ok.2 (fun x hx => h5 x.1 x.2 (BMap.mem_toList.1 hx))
  have total : ∃ r, EchoRow e sender m r := by
    cases he : m.echo.payload with
    | some b => exact ⟨_, .echoPart he⟩
    | none =>
      cases hd : m.direct.payload with
      | some b => exact ⟨_, .directPart he hd⟩
      | none =>
        by_cases hp : ∃ pack : EchoPack sp, Decodes m.normal pack
        · obtain ⟨pack, hp⟩ := hp
          by_cases hm : ∀ k, e.info.expectedEchos.contains k = true → k ≠ sender → ∃ h, pack.get? k = some h
          · by_cases hx : ∀ k h, pack.get? k = some h → e.info.expectedEchos.contains k = true ∧ k ≠ sender
            · have hex : KeysExact e sender pack := fun k => ⟨fun ⟨h, hh⟩ => hx k h hh, fun ⟨h1, h2⟩ => hm k h1 h2⟩
              rcases first_bad (received := e.echoBroadcasts) pack.sorted with hall | ⟨k, h, hmem, hbad, hprev⟩
              · exact ⟨_, .accepted he hd hp hex (fun k h hk => hall (k, h) (BMap.mem_toList.2 hk))⟩
              · have hg := BMap.mem_toList.1 hmem
                have hprev' : ∀ k' h', k' < k → pack.get? k' = some h' → EntryGood e.echoBroadcasts k' h' :=
                  fun k' h' hk hm => hprev k' h' hk (BMap.mem_toList.2 hm)
                obtain ⟨p, hpk⟩ := hc k (hx k h hg).1
                rcases entry_total (h := h) hpk with h1 | h1 | h1
                · exact absurd h1 hbad
                · exact ⟨_, .invalid he hd hp hex hg h1 hprev'⟩
                · exact ⟨_, .mismatched he hd hp hex hg h1 hprev'⟩
            · push_neg at hx
              obtain ⟨k, h, hk, hn⟩ := hx
              refine ⟨_, .extra he hd hp hm hk ?_⟩
              by_cases hcon : e.info.expectedEchos.contains k = true
              · exact Or.inr (hn hcon)
              · exact Or.inl (by simpa using hcon)
          · push_neg at hm
            obtain ⟨k, h1, h2, h3⟩ := hm
            refine ⟨_, .missing he hd hp h1 h2 ?_⟩
            cases hk : pack.get? k with
            | none => rfl
            | some h => exact absurd hk (h3 h)
        · exact ⟨_, .undecodable he hd hp⟩
  constructor
  · intro h
    obtain ⟨r', hr'⟩ := total
    rw [← h, key r' hr']
    exact hr'
  · exact key r

/-- Every message has exactly one row. -/
theorem C18_unique (mt : sp.MetaTotal) (e : EchoRd P) (hc : e.Complete) (sender : sp.Id) (m : DynMsg) :
    ∃! r, EchoRow e sender m r :=
  ⟨e.receive sender m, (C18_table mt e hc sender m _).1 rfl, fun r hr => ((C18_table mt e hc sender m r).2 hr).symm⟩

/-! ## C20 -/

/-- The echo round never fails locally, whatever is sent to it. -/
theorem C20_no_local_error (mt : sp.MetaTotal) (e : EchoRd P) (hc : e.Complete) (sender : sp.Id) (m : DynMsg) (err : LErr) :
    e.receive sender m ≠ .error (.local err) := by
  intro h
  cases (C18_table mt e hc sender m _).1 h

/-- In a run in which rounds followed by an echo round insist on an echo broadcast, every echo round holds all the
broadcasts it compares. -/
theorem C20_complete (hstrict : EchoStrict P) {s₀ s : Session P} {a : Accum P} {e : EchoRd P} (hp : Proper s₀)
    (hm : ∃ r, s₀.round = .main r) (h : Reach s₀ (.running s a)) (he : s.round = .echo e) : e.Complete := by
  obtain ⟨trail, cached, rng, l, hv, -⟩ := reach_running h
  have hi := visits_einv hp hm hv he
  intro k hk
  by_cases hme : k = s.me
  · subst hme
    obtain ⟨p, rng, h1, -⟩ := hi.own
    exact ⟨p, h1⟩
  · refine hi.complete hstrict k hme ?_
    rcases hi.info with ⟨t, -, hinfo⟩ | ⟨-, hinfo⟩
    · rw [hinfo] at hk
      exact hk
    · rw [hinfo] at hk
      simpa [hme] using hk

/-- No incoming message makes the echo round of a run panic. -/
theorem C20_no_panic_partial (mt : sp.MetaTotal) (hstrict : EchoStrict P) {s₀ s : Session P} {a : Accum P} {e : EchoRd P}
    (hp : Proper s₀) (hm : ∃ r, s₀.round = .main r) (h : Reach s₀ (.running s a)) (he : s.round = .echo e) (sender : sp.Id)
    (m : DynMsg) (err : LErr) : s.round.receive sender m ≠ .error (.local err) := by
  rw [he]
  simp only [SRound.receive]
  cases hr : e.receive sender m with
  | ok v => simp
  | error x =>
    simp only [ne_eq, Except.error.injEq]
    rintro rfl
    exact C20_no_local_error mt e (C20_complete hstrict hp hm h he) sender m err hr

/-- **C20.**  The exact condition: a message from `sender` can make the echo round of a run panic (or fail in another way) if and
only if the round has gone on without the echo broadcast of some third party whose echo it expects. -/
theorem C20_exact (mt : sp.MetaTotal) (sc : sp.SignCorrect) (srt : sp.SigRoundTrip)
    (enc : ∀ l : List (sp.Id × SignedHash), ∃ b, sp.deEchoSeq b = some l) {s₀ s : Session P} {a : Accum P} {e : EchoRd P}
    (hp : Proper s₀) (hm : ∃ r, s₀.round = .main r) (h : Reach s₀ (.running s a)) (he : s.round = .echo e) (sender : sp.Id) :
    (∃ m err, s.round.receive sender m = .error (.local err)) ↔
      ∃ k, e.info.expectedEchos.contains k = true ∧ k ≠ sender ∧ e.echoBroadcasts.get? k = none := by
  obtain ⟨trail, cached, rng, l, hv, -⟩ := reach_running h
  have hi := visits_einv hp hm hv he
  rw [he]
  constructor
  · rintro ⟨m, err, hr⟩
    by_contra hno
    push_neg at hno
    have hr' : e.receive sender m = .error (.local err) := by
      simp only [SRound.receive] at hr
      split at hr
      · rename_i x hx
        rw [hx]
        cases hr
        rfl
      · cases hr
    -- without the sender among those expected nothing changes
    have hsame : ∀ t : BSet sp.Id, (t.erase sender).erase sender = t.erase sender := by
      intro t
      apply BMap.ext
      intro k
      rw [BMap.get?_erase, BMap.get?_erase]
      split <;> rfl
    have hrec : EchoRd.receive { e with info := { e.info with expectedEchos := e.info.expectedEchos.erase sender } } sender m =
        e.receive sender m := by
      unfold EchoRd.receive EchoRd.receivePack
      simp only [hsame]
    refine C20_no_local_error mt { e with info := { e.info with expectedEchos := e.info.expectedEchos.erase sender } } ?_ sender m
      err (hrec.trans hr')
    intro k hk
    have hk' : (e.info.expectedEchos.erase sender).contains k = true := hk
    rw [BMap.contains_erase] at hk'
    by_cases hks : k = sender
    · simp [hks] at hk'
    · simp only [ne_eq, hks, not_false_eq_true, decide_true, Bool.true_and] at hk'
      exact Option.ne_none_iff_exists'.1 (hno k hk' hks)
  · rintro ⟨k, h1, h2, h3⟩
    -- the true hashes of the broadcasts there are, anything for the others
    let pack : EchoPack sp := (e.info.expectedEchos.erase sender).mapVal (fun k _ =>
      match e.echoBroadcasts.get? k with
      | some p => p.toSignedHash sp
      | none => ⟨[], ⟨[], RoundId.new 0⟩, []⟩)
    obtain ⟨b, hb⟩ := enc pack.toList
    have hdec : Decodes (⟨some b⟩ : Part .normal) pack := ⟨b, _, rfl, hb, pack.toList_nodupKeys, fun _ _ => BMap.mem_toList.symm⟩
    have hex : KeysExact e sender pack := by
      intro k
      have hc : pack.contains k = (e.info.expectedEchos.erase sender).contains k := BMap.contains_mapVal ..
      rw [← BMap.contains_iff, hc, BMap.contains_erase]
      by_cases hks : k = sender <;> simp [hks]
    have hgood : ∀ k v p, pack.get? k = some v → e.echoBroadcasts.get? k = some p → EntryGood e.echoBroadcasts k v := by
      intro k v p hk hpk
      rw [BMap.get?_mapVal] at hk
      obtain ⟨u, -, rfl⟩ := Option.map_eq_some_iff.1 hk
      simp only [hpk]
      refine ⟨p, hpk, ?_, rfl, rfl⟩
      by_cases hme : k = s.me
      · subst hme
        obtain ⟨q, rng, hq, hn⟩ := hi.own
        rw [hq] at hpk
        cases hpk
        rw [hi.proper.me]
        exact (signed_valid sc srt hn).2
      · exact (hi.others k hme p hpk).1.2
    refine ⟨⟨⟨none⟩, ⟨some b⟩, ⟨none⟩⟩, .panicEchoKey, ?_⟩
    have hrec : e.receive sender ⟨⟨none⟩, ⟨some b⟩, ⟨none⟩⟩ = .error (.local .panicEchoKey) := by
      rw [receive_pack rfl rfl hdec, receivePack_exact hex]
      rcases first_bad (received := e.echoBroadcasts) pack.sorted with hall | ⟨k', v', hmem, hbad, hprev⟩
      · obtain ⟨v, hk⟩ := (hex k).2 ⟨h1, h2⟩
        obtain ⟨p, hpk, -⟩ := hall (k, v) (BMap.mem_toList.2 hk)
        rw [h3] at hpk
        cases hpk
      · refine checkEchos_error pack.sorted hmem ?_ hprev
        cases hpk : e.echoBroadcasts.get? k' with
        | none => simp [EchoRd.checkEcho, hpk]
        | some p => exact absurd (hgood k' v' p (BMap.mem_toList.1 hmem) hpk) hbad
    simp only [SRound.receive, hrec]

/-- Typed rounds insist on an echo broadcast if their `EchoBroadcast` type is not `NoMessage`; with the default
participation this needs no assumption, since a round whose type is `NoMessage` sends no echo broadcast either. -/
theorem C20_typed (T : TypedProto sp)
    (h : ∀ s targets, (T.comm s).participation = .receive targets → (T.de (T.tag s) .echo).isSome = true) :
    EchoStrict T.wrap := by
  intro r x m v hf hr
  have hde : (T.de (T.tag r) .echo).isSome = true := by
    rcases hf with ⟨t, ht⟩ | ⟨-, rng, p, hmk, hpn⟩
    · exact h r t ht
    · cases hd : T.de (T.tag r) .echo with
      | some d => rfl
      | none =>
        simp only [TypedProto.wrap, TypedProto.newPart, hd] at hmk
        split at hmk
        · simp at hmk
        · simp only [Except.ok.injEq] at hmk
          subst hmk
          simp [Part.none, Part.isNone] at hpn
  obtain ⟨d, hd⟩ := Option.isSome_iff_exists.1 hde
  have hr' : T.wrapReceive r x m = .ok v := hr
  unfold TypedProto.wrapReceive at hr'
  cases he : m.echo.payload with
  | some b => simp [Part.isNone, he]
  | none =>
    have : T.readPart (T.tag r) m.echo = none := by
      unfold TypedProto.readPart
      simp [hd, he]
    split at hr'
    · simp at hr'
    · rw [this] at hr'
      simp at hr'

/-! ## C17 -/

/-- If B's echo round accepts the pack made by A's echo round, both hold byte-identical broadcasts of every party covered. -/
theorem C17_agreement (rt : sp.EchoRoundTrip) (eA eB : EchoRd P) (nocoll : NoCollision eA eB) (p : Part .normal)
    (hA : eA.makeNormal = .ok p) (hB : eB.receive eA.verifier ⟨Part.none, p, Part.none⟩ = .ok ()) (k : sp.Id)
    (hk : eB.info.expectedEchos.contains k = true) (hne : k ≠ eA.verifier) : SameBroadcast eA eB k := by
  unfold EchoRd.makeNormal at hA
  split at hA
  · split at hA
    · simp at hA
    · rename_i b hb
      simp only [Except.ok.injEq] at hA
      subst hA
      have hdec : Evidence.deserializePack sp (⟨some b⟩ : Part .normal) = some eA.pack :=
        C32_echo_message_round_trip sp rt _ _ hb
      rw [receive_pack (pack := eA.pack) rfl rfl (decodes_iff.2 hdec)] at hB
      unfold EchoRd.receivePack at hB
      simp only at hB
      split at hB
      · simp at hB
      · rename_i h1
        split at hB
        · simp at hB
        · obtain ⟨h, hh⟩ := missing_iff.1 (by simpa using h1) k hk hne
          obtain ⟨pB, hpB, -, hmeta, hhash⟩ := checkEchos_ok.1 hB (k, h) (BMap.mem_toList.2 hh)
          obtain ⟨-, pA, hpA, rfl⟩ := pack_get.1 hh
          refine ⟨pA, pB, hpA, hpB, hmeta, ?_⟩
          have := C31_part_hash_injective sp pA.part pB.part (nocoll k pA pB hpA hpB) hhash
          obtain ⟨⟨x⟩, hx⟩ : ∃ q, q = pA.part := ⟨_, rfl⟩
          obtain ⟨⟨y⟩, hy⟩ : ∃ q, q = pB.part := ⟨_, rfl⟩
          rw [← hx, ← hy] at this ⊢
          exact congrArg _ this.2
  · simp at hA

theorem agreement_core (rt : sp.EchoRoundTrip) {sA₀ sA sB : Session P} {aB : Accum P} {eA eB : EchoRd P} (iA : EInv sA₀ sA eA)
    (hA : sA.round = .echo eA) (iB : ∀ x, SInv sB x (aB.loc x)) (hB : sB.round = .echo eB)
    (genuine : ∀ n, aB.normals.get? sA.me = some n → n.part = sA.normal.part) (nocoll : NoCollision eA eB)
    (accepted : aB.payloads.contains sA.me = true) (k : sp.Id) (hk : eB.info.expectedEchos.contains k = true)
    (hne : k ≠ sA.me) : SameBroadcast eA eB k := by
  obtain ⟨v, hv⟩ := BMap.contains_iff.1 accepted
  obtain ⟨vm, -, hau, hrc, -, hst, -⟩ := (iB sA.me).present v hv
  rw [hB] at hrc
  simp only [SRound.receive] at hrc
  cases hr : eB.receive sA.me vm.dyn with
  | error e => simp [hr] at hrc
  | ok u =>
    have hecho : vm.echo.part.payload = none := by
      by_contra hc
      obtain ⟨b, hb⟩ := Option.ne_none_iff_exists'.1 hc
      simp [EchoRd.receive, VerifiedMessage.dyn, Part.isNone, hb] at hr
    have hdir : vm.direct.part.payload = none := by
      by_contra hc
      obtain ⟨b, hb⟩ := Option.ne_none_iff_exists'.1 hc
      simp [EchoRd.receive, VerifiedMessage.dyn, Part.isNone, hb, hecho] at hr
    have hn : vm.normal.part = sA.normal.part := by
      refine genuine _ (hst.trans ?_)
      unfold Loc.storePart
      have : vm.normal.part.isNone = false := by
        cases hq : vm.normal.part.payload with
        | some b => simp [Part.isNone, hq]
        | none =>
          simp [EchoRd.receive, VerifiedMessage.dyn, Part.isNone, hecho, hdir, Evidence.deserializePack, hq] at hr
      simp [this]
    have hd : vm.dyn = ⟨Part.none, sA.normal.part, Part.none⟩ := by
      have e1 : vm.echo.part = Part.none := by
        cases hh : vm.echo.part with
        | mk q => rw [hh] at hecho; simp only at hecho; rw [hecho]; rfl
      have e2 : vm.direct.part = Part.none := by
        cases hh : vm.direct.part with
        | mk q => rw [hh] at hdir; simp only at hdir; rw [hdir]; rfl
      simp only [VerifiedMessage.dyn, e1, e2, hn]
    rw [hd] at hr
    obtain ⟨rng, hmk⟩ := iA.proper.normalPart
    split at hmk
    · simp only [Except.ok.injEq] at hmk
      rw [← hmk] at hr
      simp [EchoRd.receive, Part.none, Part.isNone, Evidence.deserializePack] at hr
    · rw [hA] at hmk
      refine C17_agreement rt eA eB nocoll _ hmk ?_ k hk (by rw [iA.verifier]; exact hne)
      rw [iA.verifier]
      exact hr

/-- In runs: if honest A is in its echo round and honest B has accepted A's message in its own (`genuine`: the broadcast B
stored under A's name is the one A made, i.e. A's signature was not forged), both hold byte-identical broadcasts of every
party covered by A's message. -/
theorem C17_runs (rt : sp.EchoRoundTrip) {sA₀ sA sB₀ sB : Session P} {aA aB : Accum P} {eA eB : EchoRd P}
    (pA : Proper sA₀) (mA : ∃ r, sA₀.round = .main r) (rA : Reach sA₀ (.running sA aA)) (hA : sA.round = .echo eA)
    (pB : Proper sB₀) (mB : ∃ r, sB₀.round = .main r) (rB : Reach sB₀ (.running sB aB)) (hB : sB.round = .echo eB)
    (genuine : ∀ n, aB.normals.get? sA.me = some n → n.part = sA.normal.part) (nocoll : NoCollision eA eB)
    (accepted : aB.payloads.contains sA.me = true) (k : sp.Id) (hk : eB.info.expectedEchos.contains k = true)
    (hne : k ≠ sA.me) : SameBroadcast eA eB k := by
  obtain ⟨trA, cA, rngA, lA, vA, -⟩ := reach_running rA
  have iA := visits_einv pA mA vA hA
  obtain ⟨trB, hinB⟩ := reach_running rB
  exact agreement_core rt iA hA (inRound_sinv pB mB hinB) hB genuine nocoll accepted k hk hne

/-- If two honest parties accepted each other's echo messages, they hold byte-identical broadcasts of every party both
expected, themselves included. -/
theorem C17_mutual (rt : sp.EchoRoundTrip) {sA₀ sA sB₀ sB : Session P} {aA aB : Accum P} {eA eB : EchoRd P}
    (pA : Proper sA₀) (mA : ∃ r, sA₀.round = .main r) (rA : Reach sA₀ (.running sA aA)) (hA : sA.round = .echo eA)
    (pB : Proper sB₀) (mB : ∃ r, sB₀.round = .main r) (rB : Reach sB₀ (.running sB aB)) (hB : sB.round = .echo eB)
    (genuineA : ∀ n, aB.normals.get? sA.me = some n → n.part = sA.normal.part)
    (genuineB : ∀ n, aA.normals.get? sB.me = some n → n.part = sB.normal.part) (nocoll : NoCollision eA eB)
    (acceptedA : aB.payloads.contains sA.me = true) (acceptedB : aA.payloads.contains sB.me = true)
    (hne : sA.me ≠ sB.me) (k : sp.Id) (hkA : eA.info.expectedEchos.contains k = true)
    (hkB : eB.info.expectedEchos.contains k = true) : SameBroadcast eA eB k := by
  by_cases hk : k = sA.me
  · have := C17_runs rt pB mB rB hB pA mA rA hA genuineB
      (fun k p p' hp hp' h => (nocoll k p' p hp' hp h.symm).symm) acceptedB k hkA (by rw [hk]; exact hne)
    obtain ⟨p, p', h1, h2, h3, h4⟩ := this
    exact ⟨p', p, h2, h1, h3.symm, h4.symm⟩
  · exact C17_runs rt pA mA rA hA pB mB rB hB genuineA nocoll acceptedA k hkB hk

/-! ## C19 -/

/-- The pack of an honest party is accepted by an honest party: both are in the echo round of the same round of the same
session, expect echos of the same parties (apart from A), and hold the same broadcasts. -/
theorem C19_honest_pack (rt : sp.EchoRoundTrip) (hstrict : EchoStrict P) {sA₀ sA sB₀ sB : Session P} {aA aB : Accum P}
    {eA eB : EchoRd P} (pA : Proper sA₀) (mA : ∃ r, sA₀.round = .main r) (rA : Reach sA₀ (.running sA aA))
    (hA : sA.round = .echo eA) (pB : Proper sB₀) (mB : ∃ r, sB₀.round = .main r) (rB : Reach sB₀ (.running sB aB))
    (hB : sB.round = .echo eB) (hsid : sA.sessionId = sB.sessionId)
    (hrid : (P.transition eA.main).id = (P.transition eB.main).id) (hdest : sA.comm.destinations.contains sB.me = true)
    (hgraph : ∀ k, k ≠ sA.me → eA.info.expectedEchos.contains k = eB.info.expectedEchos.contains k)
    (hsame : ∀ k (p p' : SignedPart .echo), k ≠ sA.me → eA.echoBroadcasts.get? k = some p →
      eB.echoBroadcasts.get? k = some p' → p.part = p'.part)
    (rng : sp.Rng) (m : Message sp) (art : ProcessedArtifact P) (hm : sA.makeMessage rng sB.me = .ok (m, art)) :
    sB.round.receive sA.me (verifiedOf sA.me m).dyn = .ok none := by
  obtain ⟨trA, cA, rngA, lA, vA, -⟩ := reach_running rA
  have iA := visits_einv pA mA vA hA
  obtain ⟨trB, cB, rngB, lB, vB, -⟩ := reach_running rB
  have iB := visits_einv pB mB vB hB
  have cB := C20_complete hstrict pB mB rB hB
  have cA := C20_complete hstrict pA mA rA hA
  -- the message
  have hecho : sA.echo.part = Part.none := by
    obtain ⟨r, h⟩ := iA.proper.echoPart
    split at h
    · simpa using h.symm
    · rw [hA] at h
      simpa [SRound.makeEcho] using h.symm
  have hnorm : eA.makeNormal = .ok sA.normal.part := by
    obtain ⟨r, h⟩ := iA.proper.normalPart
    split at h
    · rename_i hem
      have := BMap.isEmpty_iff_contains.1 hem sB.me
      rw [hdest] at this
      simp at this
    · rw [hA] at h
      exact h
  have hmsg : m.echo = sA.echo ∧ m.normal = sA.normal ∧ m.direct.part = Part.none := by
    unfold Session.makeMessage at hm
    rw [hA] at hm
    simp only [SRound.makeDirect] at hm
    unfold Message.new at hm
    split at hm
    · simp at hm
    · rename_i m' hm'
      split at hm'
      · simp at hm'
      · rename_i d hd
        simp only [Except.ok.injEq] at hm'
        simp only [Except.ok.injEq, Prod.mk.injEq] at hm
        rw [← hm.1, ← hm']
        exact ⟨rfl, rfl, (signed_part hd).1⟩
  have hdyn : (verifiedOf sA.me m).dyn = ⟨Part.none, sA.normal.part, Part.none⟩ := by
    simp [verifiedOf, VerifiedMessage.dyn, hmsg.1, hmsg.2.1, hmsg.2.2, hecho]
  rw [hdyn, hB]
  simp only [SRound.receive]
  unfold EchoRd.makeNormal at hnorm
  split at hnorm
  · split at hnorm
    · simp at hnorm
    · rename_i b hb
      simp only [Except.ok.injEq] at hnorm
      have hdec : Evidence.deserializePack sp sA.normal.part = some eA.pack := by
        rw [← hnorm]
        exact C32_echo_message_round_trip sp rt _ _ hb
      rw [receive_pack (pack := eA.pack) rfl rfl (decodes_iff.2 hdec)]
      have hinfoA : ∀ k, k ≠ sA.me → eA.info.expectedEchos.contains k = (P.comm eA.main).expecting.contains k := by
        intro k hk
        rcases iA.info with ⟨t, -, h⟩ | ⟨-, h⟩ <;> rw [h]
        simp [hk]
      have hex : KeysExact eB sA.me eA.pack := by
        intro k
        constructor
        · rintro ⟨h, hh⟩
          obtain ⟨hk, p, hp, -⟩ := pack_get.1 hh
          rw [iA.verifier] at hk
          rw [← hgraph k hk, hinfoA k hk]
          exact ⟨(iA.others k hk p hp).2.2, hk⟩
        · rintro ⟨h1, hk⟩
          rw [← hgraph k hk] at h1
          obtain ⟨p, hp⟩ := cA k h1
          exact ⟨_, pack_get.2 ⟨by rw [iA.verifier]; exact hk, p, hp, rfl⟩⟩
      rw [receivePack_exact hex]
      have : EchoRd.checkEchos sp eB.echoBroadcasts eA.pack.toList = .ok () := by
        rw [checkEchos_ok]
        rintro ⟨k, h⟩ hmem
        have hh := BMap.mem_toList.1 hmem
        obtain ⟨hk, p, hp, rfl⟩ := pack_get.1 hh
        rw [iA.verifier] at hk
        obtain ⟨hexp, -⟩ := (hex k).1 ⟨_, hh⟩
        obtain ⟨p', hp'⟩ := cB k hexp
        obtain ⟨⟨hmeta, hsig⟩, -, -⟩ := iA.others k hk p hp
        have hmeta' : p'.metadata = ⟨sB.sessionId, (P.transition eB.main).id⟩ := by
          by_cases hkB : k = sB.me
          · subst hkB
            obtain ⟨q, rng, hq, hn⟩ := iB.own
            rw [hq] at hp'
            simp only [Option.some.injEq] at hp'
            subst hp'
            exact (signed_part hn).2
          · exact (iB.others k hkB p' hp').1.1
        refine ⟨p', hp', ?_, ?_, ?_⟩
        · exact hsig
        · show p.metadata = p'.metadata
          rw [hmeta, hmeta', hsid, hrid]
        · show sp.partHash p.part = sp.partHash p'.part
          rw [hsame k p p' hk hp hp']
      rw [this]
  · simp at hnorm

/-- The same, all the way: the message A makes, delivered to B while B waits for it, is recorded as accepted. -/
theorem C19_delivered (rt : sp.EchoRoundTrip) (sc : sp.SignCorrect) (srt : sp.SigRoundTrip) (mt : sp.MetaTotal)
    (mi : MainIds P) (hstrict : EchoStrict P) {sA₀ sA sB₀ sB : Session P} {aA aB : Accum P} {eA eB : EchoRd P}
    (pA : Proper sA₀) (mA : ∃ r, sA₀.round = .main r) (rA : Reach sA₀ (.running sA aA)) (hA : sA.round = .echo eA)
    (pB : Proper sB₀) (mB : ∃ r, sB₀.round = .main r) (rB : Reach sB₀ (.running sB aB)) (hB : sB.round = .echo eB)
    (hsid : sA.sessionId = sB.sessionId) (hrid : (P.transition eA.main).id = (P.transition eB.main).id)
    (hdest : sA.comm.destinations.contains sB.me = true)
    (hgraph : ∀ k, k ≠ sA.me → eA.info.expectedEchos.contains k = eB.info.expectedEchos.contains k)
    (hsame : ∀ k (p p' : SignedPart .echo), k ≠ sA.me → eA.echoBroadcasts.get? k = some p →
      eB.echoBroadcasts.get? k = some p' → p.part = p'.part)
    (hwait : ¬ HasError sB aB sA.me ∧ aB.processing.contains sA.me = false ∧ aB.payloads.contains sA.me = false ∧
      aB.notSent.contains sA.me = true)
    (rng : sp.Rng) (m : Message sp) (art : ProcessedArtifact P) (hm : sA.makeMessage rng sB.me = .ok (m, art)) :
    ∃ aB', deliver sB aB sA.me m = .ok aB' ∧ aB'.payloads.contains sA.me = true ∧
      aB'.provable = aB.provable ∧ aB'.unprovable = aB.unprovable := by
  have hrecv := C19_honest_pack rt hstrict pA mA rA hA pB mB rB hB hsid hrid hdest hgraph hsame rng m art hm
  obtain ⟨trA, cA, rngA, lA, vA, -⟩ := reach_running rA
  have iA := visits_einv pA mA vA hA
  obtain ⟨trB, cB, rngB, lB, vB, -⟩ := reach_running rB
  have iB := visits_einv pB mB vB hB
  have hau := makeMessage_authentic sc srt iA.proper hm
  have hid : sA.transition.id = sB.transition.id := by
    have h1 := iA.proper.transition
    have h2 := iB.proper.transition
    rw [hA] at h1
    rw [hB] at h2
    simp only [SRound.transition, EchoRd.transition] at h1 h2
    unfold TransitionInfo.echo mapErr at h1 h2
    rw [hrid] at h1
    revert h1 h2
    cases (P.transition eB.main).id.echo with
    | error e => simp
    | ok r =>
      simp only [Except.ok.injEq]
      intro h1 h2
      rw [← h1, ← h2]
  rw [hsid, hid] at hau
  refine ⟨_, deliver_accepts mt (proper_wellFormed mi iB.proper) hau hwait.1 hwait.2.1 hwait.2.2.1 hwait.2.2.2 hrecv, ?_, rfl,
    rfl⟩
  simp

/-- With all-to-all communication among a set of parties, the graph condition of `C19_honest_pack` holds. -/
theorem C19_regular {sA₀ sA sB₀ sB : Session P} {aA aB : Accum P} {eA eB : EchoRd P} (pA : Proper sA₀)
    (mA : ∃ r, sA₀.round = .main r) (rA : Reach sA₀ (.running sA aA)) (hA : sA.round = .echo eA) (pB : Proper sB₀)
    (mB : ∃ r, sB₀.round = .main r) (rB : Reach sB₀ (.running sB aB)) (hB : sB.round = .echo eB) (parties : BSet sp.Id)
    (hinA : parties.contains sA.me = true) (hinB : parties.contains sB.me = true) (hne : sA.me ≠ sB.me)
    (hcA : P.comm eA.main = CommInfo.regular (parties.erase sA.me))
    (hcB : P.comm eB.main = CommInfo.regular (parties.erase sB.me)) :
    sA.comm.destinations.contains sB.me = true ∧
      ∀ k, eA.info.expectedEchos.contains k = eB.info.expectedEchos.contains k := by
  obtain ⟨trA, cA, rngA, lA, vA, -⟩ := reach_running rA
  have iA := visits_einv pA mA vA hA
  obtain ⟨trB, cB, rngB, lB, vB, -⟩ := reach_running rB
  have iB := visits_einv pB mB vB hB
  have infoA := iA.info
  have infoB := iB.info
  rw [hcA] at infoA
  rw [hcB] at infoB
  simp only [CommInfo.regular, reduceCtorEq, false_and, exists_false, true_and, false_or] at infoA infoB
  constructor
  · have := iA.proper.comm
    rw [hA] at this
    rw [this]
    simp only [SRound.comm, EchoRd.comm, infoA]
    rw [BMap.contains_erase]
    simp [hne.symm, hinB]
  · intro k
    rw [infoA, infoB]
    simp only
    rw [BSet.contains_insert, BSet.contains_insert, BMap.contains_erase, BMap.contains_erase]
    by_cases h1 : k = sA.me
    · by_cases h2 : k = sB.me
      · exact absurd (h1.symm.trans h2) hne
      · subst h1
        simp [h2, hinA]
    · by_cases h2 : k = sB.me
      · subst h2
        simp [h1, hinB]
      · simp [h1, h2]

/-! ## Witnesses and examples -/

/-- Rounds that ask for an echo round but have no echo broadcast. -/
def mute : TypedProto toy :=
  { demo false 1 with comm := fun s => ⟨s.others, s.others, .receive s.others⟩ }

/-- Party 1 among three parties of the protocol `mute`: it gets the messages of the others, and a pack with one entry from
party 2. -/
def muteRun : Except LErr (Session mute.wrap × RunState mute.wrap) :=
  match Session.new (sp := toy) (P := mute.wrap) (0 : Nat) [9] (1 : U8)
      ⟨RoundId.new 1, fun _ _ me => .ok (⟨me, (BSet.ofList [1, 2, 3] : BSet U8).erase me, 1, 0⟩ : DemoSt)⟩ with
  | .error e => .error e
  | .ok s =>
    match mapE Act.event [.msg ⟨2, 2, [9], RoundId.new 1, 1, some [5], none, some [7]⟩,
        .msg ⟨3, 3, [9], RoundId.new 1, 1, some [5], none, some [7]⟩, .tick,
        .msg ⟨2, 2, [9], ⟨1, [], true⟩, 1, none, none, some (demoPack (RoundId.new 1) [(3, [1])])⟩] with
    | .error e => .error e
    | .ok evs =>
      match runEvents (start s (0 : Nat)).1 evs with
      | .error e => .error e
      | .ok st => .ok (s, st)

/-- The same without the last message. -/
def muteBefore : Except LErr (Session mute.wrap × RunState mute.wrap) :=
  match Session.new (sp := toy) (P := mute.wrap) (0 : Nat) [9] (1 : U8)
      ⟨RoundId.new 1, fun _ _ me => .ok (⟨me, (BSet.ofList [1, 2, 3] : BSet U8).erase me, 1, 0⟩ : DemoSt)⟩ with
  | .error e => .error e
  | .ok s =>
    match mapE Act.event [.msg ⟨2, 2, [9], RoundId.new 1, 1, some [5], none, some [7]⟩,
        .msg ⟨3, 3, [9], RoundId.new 1, 1, some [5], none, some [7]⟩, .tick] with
    | .error e => .error e
    | .ok evs =>
      match runEvents (start s (0 : Nat)).1 evs with
      | .error e => .error e
      | .ok st => .ok (s, st)

/-- Whether the state is in an echo round without the broadcast of party `k`, whose echo it expects. -/
def lacks (k : U8) : RunState mute.wrap → Bool
  | .running s _ => match s.round with
    | .echo e => e.info.expectedEchos.contains (k : toy.Id) && (e.echoBroadcasts.get? (k : toy.Id)).isNone
    | _ => false
  | _ => false

/-- Party 1 has gone on without the broadcast of party 3, so party 2 can make it panic. -/
example : ∃ (s₀ s : Session mute.wrap) (a : Accum mute.wrap) (e : EchoRd mute.wrap), Reach s₀ (.running s a) ∧ s.round = .echo e ∧
    (∃ k : U8, e.info.expectedEchos.contains (k : toy.Id) = true ∧ k ≠ 2 ∧ e.echoBroadcasts.get? (k : toy.Id) = none) ∧
    ∃ m err, s.round.receive (2 : U8) m = .error (.local err) := by
  have h : onOk muteBefore (fun r => lacks 3 r.2) = true := by decide +kernel
  obtain ⟨⟨s₀, st⟩, h1, h2⟩ := onOk_iff.1 h
  unfold muteBefore at h1
  split at h1
  · cases h1
  · rename_i s' hs
    split at h1
    · cases h1
    · split at h1
      · cases h1
      · rename_i st' hst
        cases h1
        have hr := runEvents_reach (.start _) hst
        simp only [lacks] at h2
        split at h2
        · rename_i s a
          split at h2
          · rename_i e he
            rw [Bool.and_eq_true, Option.isNone_iff_eq_none] at h2
            have hk : ∃ k : U8, e.info.expectedEchos.contains (k : toy.Id) = true ∧ k ≠ 2 ∧
                e.echoBroadcasts.get? (k : toy.Id) = none := ⟨3, h2.1, by decide, h2.2⟩
            exact ⟨_, s, a, e, hr, he, hk, (C20_exact toy_metaTotal toy_signCorrect toy_sigRoundTrip (fun l => ⟨_, toy_echoRoundTrip l _ rfl⟩)
              (new_proper hs).1 (new_proper hs).2.2.2.2 hr he (2 : U8)).2 hk⟩
          · cases h2
        · cases h2

/-- C20 as stated fails for rounds that request an echo round (`Receive`) although their `EchoBroadcast` is `NoMessage`: a
remote party makes the node panic. -/
theorem C20_no_message_violation :
    ∃ s₀ : Session mute.wrap, Proper s₀ ∧ Reach s₀ (.done (.error .panicEchoKey)) := by
  have h : onOk muteRun (fun r => r.2.isFailed (fun e => e == .panicEchoKey)) = true := by decide +kernel
  obtain ⟨⟨s, st⟩, h1, h2⟩ := onOk_iff.1 h
  obtain ⟨e, rfl, h3⟩ := isFailed_iff.1 h2
  rw [beq_iff_eq] at h3
  subst h3
  unfold muteRun at h1
  split at h1
  · simp at h1
  · rename_i s' hs
    split at h1
    · simp at h1
    · split at h1
      · simp at h1
      · rename_i st' hst
        simp only [Except.ok.injEq, Prod.mk.injEq] at h1
        obtain ⟨rfl, rfl⟩ := h1
        exact ⟨s', (new_proper hs).1, runEvents_reach (.start _) hst⟩

/-- The example protocol insists on echo broadcasts. -/
theorem demo_strict (echo : Bool) (last : U8) : EchoStrict (demo echo last).wrap :=
  C20_typed _ (fun s t h => by simp [demo, CommInfo.regular] at h)

/-- Messages of round 1 to party `me`, from the two others, then the echo round; `x` is the broadcast of party 3. -/
def toEchoRound (me other : U8) (x : Bytes) : List Act :=
  [.msg ⟨other, other, [9], RoundId.new 1, me, some [5], some [other], some [1]⟩,
   .msg ⟨3, 3, [9], RoundId.new 1, me, some [5], some x, some [1]⟩, .tick]

/-- The pack of party 1, as a message to party 2. -/
def packOf1 (x : Bytes) : Act :=
  .msg ⟨1, 1, [9], ⟨1, [], true⟩, 2, none, none, some (demoPack (RoundId.new 1) [(2, [2]), (3, x)])⟩

/-- Two runs meeting the hypotheses of `C17_runs`: parties 1 and 2 are in the echo round, and 2 has accepted 1's pack, which
covers the broadcasts of 2 and of 3. -/
example : ∃ (sA₀ sA sB₀ sB : Session (demo true 1).wrap) (aA aB : Accum (demo true 1).wrap)
    (eA eB : EchoRd (demo true 1).wrap), Proper sA₀ ∧ Proper sB₀ ∧ Reach sA₀ (.running sA aA) ∧ sA.round = .echo eA ∧
      Reach sB₀ (.running sB aB) ∧ sB.round = .echo eB ∧
      (∀ n, aB.normals.get? sA.me = some n → n.part = sA.normal.part) ∧ NoCollision eA eB ∧
      aB.payloads.contains sA.me = true ∧ eB.info.expectedEchos.contains (3 : U8) = true ∧ (3 : U8) ≠ sA.me := by
  have h : onOk (demoRunAs 1 true 1 (toEchoRound 1 2 [8])) (fun rA => onOk (demoRunAs 2 true 1
      (toEchoRound 2 1 [8] ++ [packOf1 [8]])) (fun rB => rA.2.isRunning (fun sA _ => rB.2.isRunning (fun sB aB =>
        match sA.round, sB.round with
        | .echo _, .echo eB =>
          (match aB.normals.get? sA.me with
            | some n => decide (n.part = sA.normal.part)
            | none => false) && aB.payloads.contains sA.me && eB.info.expectedEchos.contains (3 : U8) &&
            differs 3 sA.me
        | _, _ => false)))) = true := by decide +kernel
  obtain ⟨⟨sA₀, stA⟩, hA, h1⟩ := onOk_iff.1 h
  obtain ⟨⟨sB₀, stB⟩, hB, h2⟩ := onOk_iff.1 h1
  obtain ⟨sA, aA, rfl, h3⟩ := isRunning_iff.1 h2
  obtain ⟨sB, aB, rfl, h⟩ := isRunning_iff.1 h3
  clear h1 h2 h3
  obtain ⟨nA, rA⟩ := demoRunAs_ok hA
  obtain ⟨nB, rB⟩ := demoRunAs_ok hB
  split at h
  · rename_i eA eB hrA hrB
    simp only [Bool.and_eq_true] at h
    refine ⟨sA₀, sA, sB₀, sB, aA, aB, eA, eB, (new_proper nA).1, (new_proper nB).1, rA, hrA, rB, hrB, ?_, ?_, h.1.1.2, h.1.2,
      differs_ne h.2⟩
    · intro n hn
      have := h.1.1.1
      rw [hn] at this
      exact of_decide_eq_true this
    · intro k p p' _ _ hc
      exact toy_hashInjective _ _ hc
  · exact (Bool.false_ne_true h).elim

/-- Two runs meeting the hypotheses of `C19_delivered`: parties 1 and 2 are in the echo round, hold the same broadcasts, and
2 waits for the message of 1. -/
example : ∃ (sA₀ sA sB₀ sB : Session (demo true 1).wrap) (aA aB : Accum (demo true 1).wrap)
    (eA eB : EchoRd (demo true 1).wrap) (m : Message toy) (art : ProcessedArtifact (demo true 1).wrap),
      Proper sA₀ ∧ Proper sB₀ ∧ Reach sA₀ (.running sA aA) ∧ sA.round = .echo eA ∧
      Reach sB₀ (.running sB aB) ∧ sB.round = .echo eB ∧ sA.sessionId = sB.sessionId ∧
      ((demo true 1).wrap.transition eA.main).id = ((demo true 1).wrap.transition eB.main).id ∧
      sA.comm.destinations.contains sB.me = true ∧
      (∀ k, k ≠ sA.me → eA.info.expectedEchos.contains k = eB.info.expectedEchos.contains k) ∧
      (∀ k (p p' : SignedPart .echo), k ≠ sA.me → eA.echoBroadcasts.get? k = some p →
        eB.echoBroadcasts.get? k = some p' → p.part = p'.part) ∧
      (¬ HasError sB aB sA.me ∧ aB.processing.contains sA.me = false ∧ aB.payloads.contains sA.me = false ∧
        aB.notSent.contains sA.me = true) ∧
      sA.makeMessage (0 : Nat) sB.me = .ok (m, art) := by
  have h : onOk (demoRunAs 1 true 1 (toEchoRound 1 2 [8])) (fun rA => onOk (demoRunAs 2 true 1
      (toEchoRound 2 1 [8])) (fun rB => rA.2.isRunning (fun sA _ => rB.2.isRunning (fun sB aB =>
        match sA.round, sB.round with
        | .echo eA, .echo eB =>
          decide (sA.sessionId = sB.sessionId) &&
          decide (((demo true 1).wrap.transition eA.main).id = ((demo true 1).wrap.transition eB.main).id) &&
          sA.comm.destinations.contains sB.me &&
          decide ((eA.info.expectedEchos : BSet U8).elems = (eB.info.expectedEchos : BSet U8).elems) &&
          eA.echoBroadcasts.toList.all (fun e =>
            decide ((e.1 : U8) = (sA.me : U8)) || (match eB.echoBroadcasts.get? e.1 with
              | some p' => decide (e.2.part = p'.part)
              | none => true)) &&
          !(sB.transcript.isBanned sA.me || aB.isBanned sA.me) && !aB.processing.contains sA.me &&
          !aB.payloads.contains sA.me && aB.notSent.contains sA.me &&
          onOk (sA.makeMessage (0 : Nat) sB.me) (fun _ => true)
        | _, _ => false)))) = true := by decide +kernel
  obtain ⟨⟨sA₀, stA⟩, hA, h1⟩ := onOk_iff.1 h
  obtain ⟨⟨sB₀, stB⟩, hB, h2⟩ := onOk_iff.1 h1
  obtain ⟨sA, aA, rfl, h3⟩ := isRunning_iff.1 h2
  obtain ⟨sB, aB, rfl, h⟩ := isRunning_iff.1 h3
  clear h1 h2 h3
  obtain ⟨nA, rA⟩ := demoRunAs_ok hA
  obtain ⟨nB, rB⟩ := demoRunAs_ok hB
  split at h
  · rename_i eA eB hrA hrB
    simp only [Bool.and_eq_true, Bool.not_eq_true'] at h
    obtain ⟨⟨⟨⟨⟨⟨⟨⟨⟨h1, h2⟩, h3⟩, h4⟩, h5⟩, h6⟩, h7⟩, h8⟩, h9⟩, h10⟩ := h
    obtain ⟨⟨m, art⟩, hm, -⟩ := onOk_iff.1 h10
    refine ⟨sA₀, sA, sB₀, sB, aA, aB, eA, eB, m, art, (new_proper nA).1, (new_proper nB).1, rA, hrA, rB, hrB,
      of_decide_eq_true h1, of_decide_eq_true h2, h3, ?_, ?_, ⟨?_, h7, h8, h9⟩, hm⟩
    · intro k _
      have : (eA.info.expectedEchos : BSet U8) = eB.info.expectedEchos := by
        rw [← BSet.ofList_elems (eA.info.expectedEchos : BSet U8), of_decide_eq_true h4, BSet.ofList_elems]
      exact congrArg (fun s : BSet U8 => s.contains k) this
    · intro k p p' hk hp hp'
      have := List.all_eq_true.1 h5 (k, p) (BMap.mem_toList.2 hp)
      simp only [hp', Bool.or_eq_true] at this
      rcases this with h | h
      · exact absurd (of_decide_eq_true h) hk
      · exact of_decide_eq_true h
    · rw [← hasError_iff, h6]
      simp
  · exact (Bool.false_ne_true h).elim

/-- The table distinguishes packs: party 2, holding the broadcast `[8]` of party 3, gets packs from party 1. -/
def echoAnswer (pack : Bytes) : Except LErr (Option (Option RErr)) :=
  match demoRunAs 2 true 1 (toEchoRound 2 1 [8]) with
  | .error e => .error e
  | .ok (_, .running s _) =>
    match s.round.receive (1 : U8) ⟨Part.none, ⟨some pack⟩, Part.none⟩ with
    | .ok _ => .ok none
    | .error (.unprovable e) => .ok (some (some e))
    | .error _ => .ok (some none)
  | .ok (_, .done _) => .error (.user 0)

example : echoAnswer (demoPack (RoundId.new 1) [(2, [2]), (3, [8])]) = .ok none ∧
    echoAnswer (demoPack (RoundId.new 1) [(2, [2])]) = .ok (some (some .missingEchos)) ∧
    echoAnswer (demoPack (RoundId.new 1) [(1, [1]), (2, [2]), (3, [8])]) = .ok (some (some .extraEchos)) ∧
    echoAnswer (demoPack (RoundId.new 1) [(2, [2]), (3, [9])]) = .ok (some none) ∧
    echoAnswer (demoPack (RoundId.new 2) [(2, [2]), (3, [8])]) = .ok (some none) := by decide +kernel

end Manul
