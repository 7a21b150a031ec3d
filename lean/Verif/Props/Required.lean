import Verif.Props.EvidenceComplete

/-!
# Required message parts

C46: what `RequiredMessageParts` can be, and that exactly the parts it names are stored in and verified with evidence.
-/

namespace Manul

variable {sp : SP} {P : Proto sp}

/-- The part is named. -/
def RequiredParts.names (r : RequiredParts) : RequiredParts.Op → Bool
  | .echo => r.echo
  | .normal => r.normal
  | .direct => r.direct

theorem RequiredParts.and_ok (r : RequiredParts) (o : RequiredParts.Op) :
    ∃ r', r.and o = .ok r' ∧ ∀ q, r'.names q = true ↔ q = o ∨ r.names q = true := by
  cases o
  · exact ⟨⟨true, r.normal, r.direct⟩, by simp [RequiredParts.and, RequiredParts.make],
      fun q => by cases q <;> simp [RequiredParts.names]⟩
  · exact ⟨⟨r.echo, true, r.direct⟩, by simp [RequiredParts.and, RequiredParts.make],
      fun q => by cases q <;> simp [RequiredParts.names]⟩
  · exact ⟨⟨r.echo, r.normal, true⟩, by simp [RequiredParts.and, RequiredParts.make],
      fun q => by cases q <;> simp [RequiredParts.names]⟩

/-- **C46.**  Every chain of builder calls succeeds (the debug assertion cannot fire), and the value names exactly the
parts of the calls; in particular at least one. -/
theorem C46_builder (o : RequiredParts.Op) (ops : List RequiredParts.Op) :
    ∃ r, RequiredParts.build o ops = .ok r ∧ (∀ q, r.names q = true ↔ q ∈ o :: ops) ∧ r.some? = true := by
  have hfold : ∀ (ops : List RequiredParts.Op) (r : RequiredParts),
      ∃ r', foldE RequiredParts.and r ops = .ok r' ∧ ∀ q, r'.names q = true ↔ q ∈ ops ∨ r.names q = true := by
    intro ops
    induction ops with
    | nil => intro r; exact ⟨r, rfl, fun q => by simp⟩
    | cons o ops ih =>
      intro r
      obtain ⟨r1, h1, h2⟩ := RequiredParts.and_ok r o
      obtain ⟨r2, h3, h4⟩ := ih r1
      refine ⟨r2, by simp only [foldE, h1]; exact h3, fun q => ?_⟩
      rw [h4, h2, List.mem_cons]
      constructor
      · rintro (h | h | h)
        · exact .inl (.inr h)
        · exact .inl (.inl h)
        · exact .inr h
      · rintro ((h | h) | h)
        · exact .inr (.inl h)
        · exact .inl h
        · exact .inr (.inr h)
  have hbase : ∃ r, RequiredParts.base o = .ok r ∧ ∀ q, r.names q = true ↔ q = o := by
    cases o
    · exact ⟨⟨true, false, false⟩, rfl, fun q => by cases q <;> simp [RequiredParts.names]⟩
    · exact ⟨⟨false, true, false⟩, rfl, fun q => by cases q <;> simp [RequiredParts.names]⟩
    · exact ⟨⟨false, false, true⟩, rfl, fun q => by cases q <;> simp [RequiredParts.names]⟩
  obtain ⟨r, h1, h2⟩ := hbase
  obtain ⟨r', h3, h4⟩ := hfold ops r
  have hn : ∀ q, r'.names q = true ↔ q ∈ o :: ops := by
    intro q
    rw [h4, h2, List.mem_cons]
    exact or_comm
  refine ⟨r', by simp only [RequiredParts.build, h1]; exact h3, hn, ?_⟩
  have := (hn o).2 List.mem_cons_self
  cases o <;> simp [RequiredParts.names] at this <;> simp [RequiredParts.some?, this]

example : RequiredParts.build .echo [.direct, .echo] = .ok ⟨true, false, true⟩ := by decide

/-- What the evidence of a protocol error holds: of the message that triggered it and of the earlier messages of the
sender, exactly the parts asked for; and for the combined echos asked for, the pack of the sender and the echo
broadcasts of the others. -/
structure StoresExactly (who : sp.Id) (echo : SignedPart .echo) (normal : SignedPart .normal) (direct : SignedPart .direct)
    (req : RequiredMessages) (t : Transcript sp) (e : ProtocolEvidence sp) : Prop where
  direct : ∀ p, e.direct = some p ↔ req.thisRound.direct = true ∧ p = direct
  echo : ∀ p, e.echo = some p ↔ req.thisRound.echo = true ∧ p = echo
  normal : ∀ p, e.normal = some p ↔ req.thisRound.normal = true ∧ p = normal
  directs : ∀ r p, e.directs.get? r = some p ↔ (∃ all rp, req.previous = some all ∧ all.get? r = some rp ∧
    rp.direct = true) ∧ ∃ m, t.directs.get? r = some m ∧ m.get? who = some p
  echos : ∀ r p, e.echos.get? r = some p ↔ (∃ all rp, req.previous = some all ∧ all.get? r = some rp ∧
    rp.echo = true) ∧ ∃ m, t.echos.get? r = some m ∧ m.get? who = some p
  normals : ∀ r p, e.normals.get? r = some p ↔ (∃ all rp, req.previous = some all ∧ all.get? r = some rp ∧
    rp.normal = true) ∧ ∃ m, t.normals.get? r = some m ∧ m.get? who = some p
  packs : ∀ r p, e.echoHashes.get? r = some p ↔ (∃ all, req.combined = some all ∧ all.contains r = true) ∧
    ∃ re m, r.echo = .ok re ∧ t.normals.get? re = some m ∧ m.get? who = some p
  others : ∀ r o, e.otherEchos.get? r = some o ↔ (∃ all, req.combined = some all ∧ all.contains r = true) ∧
    ∃ m, t.echos.get? r = some m ∧ o = m.erase who

theorem fetched_iff {k : PartKind} {src : BMap RoundId (BMap sp.Id (SignedPart k))} {who : sp.Id} {sel : RequiredParts → Bool}
    {req : RequiredMessages} {out : BMap RoundId (SignedPart k)}
    (h : foldE (fun acc e => Evidence.fetch (sel e.2) src e.1 who acc) BMap.empty
      (match req.previous with | none => [] | some m => m.toList) = .ok out) (r : RoundId) (p : SignedPart k) :
    out.get? r = some p ↔ (∃ all rp, req.previous = some all ∧ all.get? r = some rp ∧ sel rp = true) ∧
      ∃ m, src.get? r = some m ∧ m.get? who = some p := by
  obtain ⟨-, h2, h3⟩ := fetched h
  constructor
  · intro hp
    exact ⟨(h2 r).1 (BMap.contains_iff.2 ⟨p, hp⟩), h3 r p hp⟩
  · rintro ⟨ha, m, hm1, hm2⟩
    obtain ⟨q, hq⟩ := BMap.contains_iff.1 ((h2 r).2 ha)
    obtain ⟨m', h4, h5⟩ := h3 r q hq
    rw [hm1] at h4
    cases h4
    rw [hm2] at h5
    cases h5
    exact hq

/-- **C46.**  Only the parts asked for are stored, and all of them. -/
theorem C46_stored {who : sp.Id} {echo : SignedPart .echo} {normal : SignedPart .normal} {direct : SignedPart .direct}
    {req : RequiredMessages} {ser : Except LErr Bytes} {t : Transcript sp} {ev : Evidence sp}
    (h : Evidence.newProvableError who echo normal direct req ser t = .ok ev) :
    ev.guilty = who ∧ ∃ e, ev.body = .protocol e ∧ ser = .ok e.error ∧ StoresExactly who echo normal direct req t e := by
  obtain ⟨prev, comb, bytes, hprev, hcomb, hser, rfl⟩ := newProvableError_ok h
  refine ⟨rfl, _, rfl, hser, ?_⟩
  obtain ⟨he, hn, hd⟩ := Evidence.fetchPrevious_split _ _ _ hprev
  obtain ⟨hc1, hc2⟩ := Evidence.fetchCombined_fold _ _ _ hcomb
  have hcmem : ∀ r, r ∈ (match req.combined with | none => [] | some s => BSet.elems s) ↔
      ∃ all, req.combined = some all ∧ all.contains r = true := by
    intro r
    cases hrc : req.combined with
    | none => simp
    | some all => simp [BSet.mem_elems]
  have hask : ∀ {k : PartKind} (b : Bool) (q p : SignedPart k), (if b = true then some q else none) = some p ↔ b = true ∧ p = q := by
    intro k b q p
    cases b
    · simp
    · simp [eq_comm]
  constructor
  · exact fun p => hask _ _ p
  · exact fun p => hask _ _ p
  · exact fun p => hask _ _ p
  · exact fun r p => fetched_iff (sel := fun rp => rp.direct) hd r p
  · exact fun r p => fetched_iff (sel := fun rp => rp.echo) he r p
  · exact fun r p => fetched_iff (sel := fun rp => rp.normal) hn r p
  · intro r p
    rw [← hcmem]
    by_cases hr : r ∈ (match req.combined with | none => [] | some s => BSet.elems s)
    · obtain ⟨re, n, o, h1, h2, h3, h4, h5⟩ := hc1 r hr
      obtain ⟨m, hm1, hm2⟩ := Evidence.getPart_ok.1 h2
      constructor
      · intro hp
        rw [h4] at hp
        cases hp
        exact ⟨hr, re, m, h1, hm1, hm2⟩
      · rintro ⟨-, re', m', h1', hm1', hm2'⟩
        rw [h1] at h1'
        cases h1'
        rw [hm1] at hm1'
        cases hm1'
        rw [hm2] at hm2'
        cases hm2'
        exact h4
    · refine ⟨fun hp => ?_, fun hp => absurd hp.1 hr⟩
      rw [(hc2 r hr).1] at hp
      simp at hp
  · intro r o
    rw [← hcmem]
    by_cases hr : r ∈ (match req.combined with | none => [] | some s => BSet.elems s)
    · obtain ⟨re, n, o', h1, h2, h3, h4, h5⟩ := hc1 r hr
      constructor
      · intro hp
        rw [h5] at hp
        cases hp
        exact ⟨hr, o', h3, rfl⟩
      · rintro ⟨-, m', h1', rfl⟩
        rw [h3] at h1'
        cases h1'
        exact h5
    · refine ⟨fun hp => ?_, fun hp => absurd hp.1 hr⟩
      rw [(hc2 r hr).2] at hp
      simp at hp

/-- **C46.**  When evidence of a protocol error verifies, every part in it has been verified again as signed by the
guilty party for the session and for its round, and the protocol's own check has been given exactly the stored parts. -/
theorem C46_verified {shared : P.Shared} {guilty : sp.Id} {e : ProtocolEvidence sp} {u : Unit}
    (h : Evidence.verify P shared ⟨guilty, .protocol e⟩ = .ok u) :
    ∃ sid rid info,
      (∀ p, e.direct = some p → AuthenticPart guilty sid rid p) ∧
      (∀ p, e.echo = some p → AuthenticPart guilty sid rid p) ∧
      (∀ p, e.normal = some p → AuthenticPart guilty sid rid p) ∧
      (∀ r p, e.directs.get? r = some p → AuthenticPart guilty sid r p) ∧
      (∀ r p, e.echos.get? r = some p → AuthenticPart guilty sid r p) ∧
      (∀ r p, e.normals.get? r = some p → AuthenticPart guilty sid r p) ∧
      P.roundInfo rid = some info ∧ ∃ prev comb,
        info.verifyEvidence rid e.error guilty sid shared ⟨e.direct.map (fun p => p.part), e.normal.map (fun p => p.part),
          e.echo.map (fun p => p.part)⟩ prev comb = .ok u ∧
        (∀ r m, prev.get? r = some m ↔ (e.directs.contains r = true ∨ e.echos.contains r = true ∨
          e.normals.contains r = true) ∧ m = ⟨(e.directs.get? r).map (fun p => p.part), (e.normals.get? r).map (fun p => p.part),
            (e.echos.get? r).map (fun p => p.part)⟩) ∧
        ∀ r, comb.contains r = e.echoHashes.contains r := by
  have h' : Evidence.verifyProtocol P guilty shared e = .ok u := h
  obtain ⟨m, info, hm, hi, h1, h2, h3, h4, h5, h6, h7⟩ := Evidence.verifyProtocol_checks h'
  rw [Evidence.verifyProtocol_ok hm h1 h2 h3 h4 h5 h6 h7 hi] at h'
  refine ⟨m.sessionId, m.roundId, info, h1, h2, h3, h4, h5, h6, hi, _, _, h', fun r x => ?_, fun r => ?_⟩
  · rw [Evidence.mergeParts_get]
    simp only [BMap.contains_mapVal, BMap.get?_mapVal]
    constructor
    · rintro ⟨ho, hx⟩
      exact ⟨by rcases ho with h | h | h <;> simp [h], hx⟩
    · rintro ⟨ho, hx⟩
      exact ⟨by rcases ho with h | h | h <;> simp [h], hx⟩
  · exact BMap.contains_mapVal ..

/-- The hypotheses of `C46_stored` and `C46_verified` are satisfiable: evidence made from a message of party 2, asking for
its direct message, verifies. -/
example : ∃ (m : Message toy) (ev : Evidence toy) (e : ProtocolEvidence toy) (u : Unit),
    Evidence.newProvableError (sp := toy) (2 : U8) m.echo m.normal m.direct ⟨⟨false, false, true⟩, none, none⟩ (.ok [])
      Transcript.new = .ok ev ∧ ev.body = .protocol e ∧ (e.direct.isSome = true ∧ e.normal.isSome = false) ∧
    Evidence.verify (demo false 1).wrap () ⟨ev.guilty, .protocol e⟩ = .ok u := by
  have h : onOk (demoMsg 2 [9] (RoundId.new 1) 1 (some [66]) none (some [7])) (fun m =>
      onOk (Evidence.newProvableError (sp := toy) (2 : U8) m.echo m.normal m.direct ⟨⟨false, false, true⟩, none, none⟩ (.ok [])
        Transcript.new) (fun ev => match ev.body with
          | .protocol e => (e.direct.isSome && !e.normal.isSome) &&
            (match Evidence.verify (demo false 1).wrap () ⟨ev.guilty, .protocol e⟩ with | .ok _ => true | .error _ => false)
          | _ => false)) = true := by decide +kernel
  obtain ⟨m, -, h1⟩ := onOk_iff.1 h
  obtain ⟨ev, h2, h3⟩ := onOk_iff.1 h1
  cases hb : ev.body with
  | protocol e =>
    rw [hb] at h3
    simp only [Bool.and_eq_true, Bool.not_eq_true'] at h3
    cases hv : Evidence.verify (demo false 1).wrap () ⟨ev.guilty, .protocol e⟩ with
    | error err => rw [hv] at h3; simp at h3
    | ok u => exact ⟨m, ev, e, u, h2, hb, h3.1, hv⟩
  | _ => rw [hb] at h3; simp at h3

end Manul
