import Verif.Lemmas.Evidence

/-! # The checks of evidence, and what is put into evidence -/

namespace Manul

variable {sp : SP} {P : Proto sp}

/-- A loop that checks every element and inserts a value for it. -/
theorem foldE_insert {ε α K V : Type} [LinearOrder K] {f : BMap K V → α → Except ε (BMap K V)} (good : α → Prop) (key : α → K)
    (val : α → V) (h1 : ∀ acc e, good e → f acc e = .ok (acc.insert (key e) (val e)))
    (h2 : ∀ acc e acc', f acc e = .ok acc' → good e) (l : List α) (acc out : BMap K V) :
    foldE f acc l = .ok out ↔
      (∀ e ∈ l, good e) ∧ out = l.foldl (fun m e => m.insert (key e) (val e)) acc := by
  induction l generalizing acc with
  | nil => simp [foldE, eq_comm]
  | cons e l ih =>
    simp only [foldE, List.mem_cons, forall_eq_or_imp, List.foldl_cons]
    cases hf : f acc e with
    | error err =>
      simp only [reduceCtorEq, false_iff, not_and]
      rintro ⟨hg, -⟩
      rw [h1 acc e hg] at hf
      simp at hf
    | ok acc' =>
      have hg := h2 acc e acc' hf
      rw [h1 acc e hg, Except.ok.injEq] at hf
      subst hf
      simp only [ih, hg, true_and]

theorem foldl_ofList {α K V : Type} [LinearOrder K] (key : α → K) (val : α → V) (l : List α) :
    l.foldl (fun (m : BMap K V) e => m.insert (key e) (val e)) BMap.empty = BMap.ofList (l.map (fun e => (key e, val e))) := by
  unfold BMap.ofList
  rw [List.foldl_map]

theorem foldl_toList {K V W : Type} [LinearOrder K] (m : BMap K V) (val : K × V → W) :
    m.toList.foldl (fun (a : BMap K W) e => a.insert e.1 (val e)) BMap.empty = m.mapVal (fun k v => val (k, v)) := by
  rw [foldl_ofList]
  apply BMap.ext
  intro k
  apply Option.ext
  intro v
  have hn : ((m.toList.map (fun e => (e.1, val e))).map (·.1)).Nodup := by
    rw [List.map_map]
    exact m.toList_nodupKeys
  rw [BMap.get?_ofList_nodup hn, BMap.get?_mapVal, List.mem_map]
  constructor
  · rintro ⟨⟨k', w⟩, hm, he⟩
    simp only [Prod.mk.injEq] at he
    obtain ⟨rfl, rfl⟩ := he
    rw [BMap.mem_toList.1 hm]
    rfl
  · intro h
    cases hk : m.get? k with
    | none => simp [hk] at h
    | some w =>
      rw [hk] at h
      simp only [Option.map_some, Option.some.injEq] at h
      exact ⟨(k, w), BMap.mem_toList.2 hk, by rw [h]⟩

theorem metadata_eq {m : Metadata} {sid : Bytes} {r : RoundId} :
    (m.sessionId ≠ sid ∨ m.roundId ≠ r) ↔ ¬ m = ⟨sid, r⟩ := by
  obtain ⟨a, b⟩ := m
  simp only [Metadata.mk.injEq]
  by_cases h1 : a = sid <;> by_cases h2 : b = r <;> simp [h1, h2]

namespace Evidence

theorem verifyPart_ok {k : PartKind} {who : sp.Id} {sid : Bytes} {r : RoundId} {m : Option (SignedPart k)}
    {out : Option (Part k)} :
    verifyPart who sid r m = .ok out ↔ (∀ p, m = some p → AuthenticPart who sid r p) ∧ out = m.map (fun p => p.part) := by
  unfold verifyPart AuthenticPart
  cases m with
  | none => simp [eq_comm]
  | some p =>
    simp only [metadata_eq]
    by_cases hm : p.metadata = ⟨sid, r⟩
    · rw [if_neg (by simpa using hm)]
      cases hv : p.verify sp who with
      | error e =>
        have : ¬ SigValid who p := fun hs => by rw [(verifySigned_ok (u := ())).2 hs] at hv; simp at hv
        simp [this]
      | ok u =>
        have := verifySigned_ok.1 hv
        simp [hm, this, eq_comm]
    · rw [if_pos hm]
      simp [hm]

theorem verifyParts_ok {k : PartKind} {who : sp.Id} {sid : Bytes} {m : BMap RoundId (SignedPart k)}
    {out : BMap RoundId (Part k)} :
    verifyParts who sid m = .ok out ↔
      (∀ r p, m.get? r = some p → AuthenticPart who sid r p) ∧ out = m.mapVal (fun _ p => p.part) := by
  unfold verifyParts
  rw [foldE_insert (fun e : RoundId × SignedPart k => AuthenticPart who sid e.1 e.2) (fun e => e.1) (fun e => e.2.part),
    foldl_toList]
  · constructor
    · rintro ⟨h1, h2⟩
      exact ⟨fun r p h => h1 (r, p) (BMap.mem_toList.2 h), h2⟩
    · rintro ⟨h1, h2⟩
      exact ⟨fun e he => h1 e.1 e.2 (BMap.mem_toList.1 he), h2⟩
  · rintro acc e ⟨h1, h2⟩
    rw [show e.2.verify sp who = .ok () from verifySigned_ok.2 h2]
    simp only
    rw [if_neg]
    rw [metadata_eq]
    simpa using h1
  · intro acc e acc' h
    split at h
    · simp at h
    · rename_i hv
      split at h
      · simp at h
      · rename_i hm
        rw [metadata_eq, not_not] at hm
        exact ⟨hm, verifySigned_ok.1 hv⟩

/-- An entry of a pack passes the checks against the attached broadcasts. -/
def EchoedOk (sid : Bytes) (r : RoundId) (attached : BMap sp.Id (SignedPart .echo)) (e : sp.Id × SignedHash) : Prop :=
  e.2.metadata = ⟨sid, r⟩ ∧ HashSigned e.1 e.2 ∧
    ∃ b, attached.get? e.1 = some b ∧ AuthenticPart e.1 sid r b ∧ e.2.hash = sp.partHash b.part

/-- The attached broadcasts of the parties in a pack. -/
def echoedOf (attached : BMap sp.Id (SignedPart .echo)) (pack : EchoPack sp) : BMap sp.Id (Part .echo) :=
  pack.mapVal (fun k _ => ((attached.get? k).map (fun b => b.part)).getD Part.none)

theorem verifyEchoed_ok {sid : Bytes} {r : RoundId} {attached : BMap sp.Id (SignedPart .echo)} {pack : EchoPack sp}
    {out : BMap sp.Id (Part .echo)} :
    foldE (verifyEchoed sid r attached) BMap.empty pack.toList = .ok out ↔
      (∀ k h, pack.get? k = some h → EchoedOk sid r attached (k, h)) ∧ out = echoedOf attached pack := by
  rw [foldE_insert (EchoedOk sid r attached) (fun e => e.1)
    (fun e => ((attached.get? e.1).map (fun b => b.part)).getD Part.none), foldl_toList]
  · constructor
    · rintro ⟨h1, h2⟩
      exact ⟨fun k h hk => h1 (k, h) (BMap.mem_toList.2 hk), h2⟩
    · rintro ⟨h1, h2⟩
      exact ⟨fun e he => h1 e.1 e.2 (BMap.mem_toList.1 he), h2⟩
  · rintro acc e ⟨h1, h2, b, h3, ⟨h4, h5⟩, h6⟩
    unfold verifyEchoed
    rw [if_neg (by rw [metadata_eq]; simpa using h1), show e.2.verify sp e.1 = .ok () from hash_verify_ok.2 h2]
    simp only [h3]
    rw [if_neg (by rw [metadata_eq]; simpa using h4), if_neg (by simp [SignedHash.isHashOf, h6]),
      show b.verify sp e.1 = .ok () from verifySigned_ok.2 h5]
    rfl
  · intro acc e acc' h
    unfold verifyEchoed at h
    split at h
    · simp at h
    · rename_i h1
      rw [metadata_eq, not_not] at h1
      split at h
      · simp at h
      · rename_i h2
        split at h
        · simp at h
        · rename_i b h3
          split at h
          · simp at h
          · rename_i h4
            rw [metadata_eq, not_not] at h4
            split at h
            · simp at h
            · rename_i h5
              split at h
              · simp at h
              · rename_i h6
                refine ⟨h1, hash_verify_ok.1 h2, b, h3, ⟨h4, verifySigned_ok.1 h6⟩, ?_⟩
                simp only [SignedHash.isHashOf, decide_eq_false_iff_not, not_not] at h5
                exact h5.symm

/-- An attached pack passes the checks. -/
def CombinedOk (who : sp.Id) (sid : Bytes) (other : BMap RoundId (BMap sp.Id (SignedPart .echo)))
    (e : RoundId × SignedPart .normal) : Prop :=
  e.2.metadata.sessionId = sid ∧ e.2.metadata.roundId.nonEcho = .ok e.1 ∧ SigValid who e.2 ∧
    ∃ (pack : EchoPack sp) (attached : BMap sp.Id (SignedPart .echo)), Decodes e.2.part pack ∧ other.get? e.1 = some attached ∧
      ∀ k h, pack.get? k = some h → EchoedOk sid e.1 attached (k, h)

/-- The combined broadcasts of a round. -/
def combinedOf (other : BMap RoundId (BMap sp.Id (SignedPart .echo))) (e : RoundId × SignedPart .normal) :
    BMap sp.Id (Part .echo) :=
  echoedOf ((other.get? e.1).getD BMap.empty) ((deserializePack sp e.2.part).getD BMap.empty)

theorem verifyCombined_ok {who : sp.Id} {sid : Bytes} {other : BMap RoundId (BMap sp.Id (SignedPart .echo))}
    {hashes : BMap RoundId (SignedPart .normal)} {out : BMap RoundId (BMap sp.Id (Part .echo))} :
    foldE (verifyCombined who sid other) BMap.empty hashes.toList = .ok out ↔
      (∀ r p, hashes.get? r = some p → CombinedOk who sid other (r, p)) ∧
        out = hashes.mapVal (fun r p => combinedOf other (r, p)) := by
  rw [foldE_insert (CombinedOk who sid other) (fun e => e.1) (combinedOf other), foldl_toList]
  · constructor
    · rintro ⟨h1, h2⟩
      exact ⟨fun r p h => h1 (r, p) (BMap.mem_toList.2 h), h2⟩
    · rintro ⟨h1, h2⟩
      exact ⟨fun e he => h1 e.1 e.2 (BMap.mem_toList.1 he), h2⟩
  · rintro acc e ⟨h1, h2, h3, pack, attached, h4, h5, h6⟩
    unfold verifyCombined
    rw [h2]
    simp only
    rw [if_neg (by simp [h1]), show e.2.verify sp who = .ok () from verifySigned_ok.2 h3]
    rw [decodes_iff] at h4
    simp only [h4, h5]
    rw [verifyEchoed_ok.2 ⟨h6, rfl⟩]
    simp only [combinedOf, h4, h5, Option.getD_some]
  · intro acc e acc' h
    unfold verifyCombined at h
    split at h
    · simp at h
    · rename_i mr h1
      split at h
      · simp at h
      · rename_i h2
        split at h
        · simp at h
        · rename_i h3
          split at h
          · simp at h
          · rename_i pack h4
            split at h
            · simp at h
            · rename_i attached h5
              split at h
              · simp at h
              · rename_i msgs h6
                simp only [not_or, not_not] at h2
                exact ⟨h2.1, by rw [h1, h2.2], verifySigned_ok.1 h3, pack, attached, decodes_iff.2 h4, h5,
                  (verifyEchoed_ok.1 h6).1⟩

theorem mergeParts_get {echos : BMap RoundId (Part .echo)} {normals : BMap RoundId (Part .normal)}
    {directs : BMap RoundId (Part .direct)} {r : RoundId} {m : EvMsg} :
    (mergeParts echos normals directs).get? r = some m ↔
      (echos.contains r = true ∨ normals.contains r = true ∨ directs.contains r = true) ∧
        m = ⟨directs.get? r, normals.get? r, echos.get? r⟩ := by
  unfold mergeParts
  simp only
  rw [BMap.get?_ofList_nodup]
  · rw [List.mem_map]
    constructor
    · rintro ⟨r', h1, h2⟩
      simp only [Prod.mk.injEq] at h2
      obtain ⟨rfl, rfl⟩ := h2
      refine ⟨?_, rfl⟩
      rw [BSet.mem_elems, BSet.contains_ofList] at h1
      simp only [List.mem_append, BSet.mem_elems, decide_eq_true_eq, BMap.contains_keys] at h1
      tauto
    · rintro ⟨h1, h2⟩
      refine ⟨r, ?_, by rw [h2]⟩
      rw [BSet.mem_elems, BSet.contains_ofList]
      simp only [List.mem_append, BSet.mem_elems, decide_eq_true_eq, BMap.contains_keys]
      tauto
  · rw [List.map_map]
    simpa [Function.comp_def] using BSet.elems_nodup _

/-- Everything `ProtocolEvidence::verify` checks before calling the protocol, and what it calls it with. -/
theorem verifyProtocol_ok {guilty : sp.Id} {shared : P.Shared} {e : ProtocolEvidence sp} {m : Metadata}
    {info : RoundInfo sp P.Shared} (hm : triggerMetadata e = some m)
    (h1 : ∀ p, e.direct = some p → AuthenticPart guilty m.sessionId m.roundId p)
    (h2 : ∀ p, e.echo = some p → AuthenticPart guilty m.sessionId m.roundId p)
    (h3 : ∀ p, e.normal = some p → AuthenticPart guilty m.sessionId m.roundId p)
    (h4 : ∀ r p, e.directs.get? r = some p → AuthenticPart guilty m.sessionId r p)
    (h5 : ∀ r p, e.echos.get? r = some p → AuthenticPart guilty m.sessionId r p)
    (h6 : ∀ r p, e.normals.get? r = some p → AuthenticPart guilty m.sessionId r p)
    (h7 : ∀ r p, e.echoHashes.get? r = some p → CombinedOk guilty m.sessionId e.otherEchos (r, p))
    (hi : P.roundInfo m.roundId = some info) :
    verifyProtocol P guilty shared e = info.verifyEvidence m.roundId e.error guilty m.sessionId shared
      ⟨e.direct.map (fun p => p.part), e.normal.map (fun p => p.part), e.echo.map (fun p => p.part)⟩
      (mergeParts (e.echos.mapVal (fun _ p => p.part)) (e.normals.mapVal (fun _ p => p.part))
        (e.directs.mapVal (fun _ p => p.part)))
      (e.echoHashes.mapVal (fun r p => combinedOf e.otherEchos (r, p))) := by
  unfold verifyProtocol
  rw [hm]
  simp only
  rw [verifyPart_ok.2 ⟨h1, rfl⟩, verifyPart_ok.2 ⟨h2, rfl⟩, verifyPart_ok.2 ⟨h3, rfl⟩]
  simp only
  rw [verifyParts_ok.2 ⟨h4, rfl⟩, verifyParts_ok.2 ⟨h5, rfl⟩, verifyParts_ok.2 ⟨h6, rfl⟩]
  simp only
  rw [verifyCombined_ok.2 ⟨h7, rfl⟩]
  simp only [hi]

/-- If it succeeds, all checks passed. -/
theorem verifyProtocol_checks {guilty : sp.Id} {shared : P.Shared} {e : ProtocolEvidence sp} {u : Unit}
    (h : verifyProtocol P guilty shared e = .ok u) :
    ∃ m info, triggerMetadata e = some m ∧ P.roundInfo m.roundId = some info ∧
      (∀ p, e.direct = some p → AuthenticPart guilty m.sessionId m.roundId p) ∧
      (∀ p, e.echo = some p → AuthenticPart guilty m.sessionId m.roundId p) ∧
      (∀ p, e.normal = some p → AuthenticPart guilty m.sessionId m.roundId p) ∧
      (∀ r p, e.directs.get? r = some p → AuthenticPart guilty m.sessionId r p) ∧
      (∀ r p, e.echos.get? r = some p → AuthenticPart guilty m.sessionId r p) ∧
      (∀ r p, e.normals.get? r = some p → AuthenticPart guilty m.sessionId r p) ∧
      (∀ r p, e.echoHashes.get? r = some p → CombinedOk guilty m.sessionId e.otherEchos (r, p)) := by
  unfold verifyProtocol at h
  split at h
  · simp at h
  · rename_i m hm
    split at h
    · simp at h
    · rename_i h1
      split at h
      · simp at h
      · rename_i h2
        split at h
        · simp at h
        · rename_i h3
          split at h
          · simp at h
          · rename_i h4
            split at h
            · simp at h
            · rename_i h5
              split at h
              · simp at h
              · rename_i h6
                split at h
                · simp at h
                · rename_i h7
                  split at h
                  · simp at h
                  · rename_i info hi
                    exact ⟨m, info, hm, hi, (verifyPart_ok.1 h1).1, (verifyPart_ok.1 h2).1, (verifyPart_ok.1 h3).1,
                      (verifyParts_ok.1 h4).1, (verifyParts_ok.1 h5).1, (verifyParts_ok.1 h6).1,
                      (verifyCombined_ok.1 h7).1⟩

/-! ## What is put into evidence -/

theorem getPart_ok {k : PartKind} {m : BMap RoundId (BMap sp.Id (SignedPart k))} {r : RoundId} {who : sp.Id}
    {p : SignedPart k} : Transcript.getPart m r who = .ok p ↔ ∃ e, m.get? r = some e ∧ e.get? who = some p := by
  unfold Transcript.getPart okOr
  cases h : m.get? r with
  | none => simp
  | some e => cases h' : e.get? who <;> simp [h']

theorem fetch_fold {k : PartKind} {src : BMap RoundId (BMap sp.Id (SignedPart k))} {who : sp.Id}
    (sel : RequiredParts → Bool) (l : List (RoundId × RequiredParts)) (acc out : BMap RoundId (SignedPart k))
    (h : foldE (fun acc e => fetch (sel e.2) src e.1 who acc) acc l = .ok out) :
    (∀ r rp, (r, rp) ∈ l → sel rp = true → ∃ p, Transcript.getPart src r who = .ok p ∧ out.get? r = some p) ∧
      (∀ r p, out.get? r = some p →
        (∃ rp, (r, rp) ∈ l ∧ sel rp = true ∧ Transcript.getPart src r who = .ok p) ∨ acc.get? r = some p) ∧
      ∀ r p, acc.get? r = some p → out.get? r = some p ∨ ∃ rp, (r, rp) ∈ l ∧ sel rp = true := by
  induction l generalizing acc with
  | nil =>
    simp only [foldE, Except.ok.injEq] at h
    subst h
    simp
  | cons e l ih =>
    simp only [foldE] at h
    split at h
    case h_2 => simp at h
    rename_i acc' hf
    obtain ⟨i1, i2, i3⟩ := ih acc' h
    unfold fetch at hf
    split at hf
    · rename_i hs
      split at hf
      · simp at hf
      · rename_i p hp
        simp only [Except.ok.injEq] at hf
        subst hf
        refine ⟨?_, ?_, ?_⟩
        · intro r rp hm hsel
          rcases List.mem_cons.1 hm with rfl | hm
          · rcases i3 r p (by simp) with h' | ⟨rp', h', hs'⟩
            · exact ⟨p, hp, h'⟩
            · exact i1 r rp' h' hs'
          · exact i1 r rp hm hsel
        · intro r q hq
          rcases i2 r q hq with ⟨rp, h1, h2, h3⟩ | h'
          · exact Or.inl ⟨rp, List.mem_cons_of_mem _ h1, h2, h3⟩
          · rw [BMap.get?_insert] at h'
            split at h'
            · rename_i hr
              simp only [Option.some.injEq] at h'
              subst h'
              exact Or.inl ⟨e.2, by rw [hr]; exact List.mem_cons_self .., hs, by rw [hr]; exact hp⟩
            · exact Or.inr h'
        · intro r q hq
          by_cases hr : r = e.1
          · exact Or.inr ⟨e.2, by rw [hr]; exact List.mem_cons_self .., hs⟩
          · rcases i3 r q (by rw [BMap.get?_insert, if_neg hr]; exact hq) with h' | ⟨rp, h1, h2⟩
            · exact Or.inl h'
            · exact Or.inr ⟨rp, List.mem_cons_of_mem _ h1, h2⟩
    · rename_i hs
      simp only [Except.ok.injEq] at hf
      subst hf
      refine ⟨?_, ?_, ?_⟩
      · intro r rp hm hsel
        rcases List.mem_cons.1 hm with rfl | hm
        · exact absurd hsel hs
        · exact i1 r rp hm hsel
      · intro r q hq
        rcases i2 r q hq with ⟨rp, h1, h2, h3⟩ | h'
        · exact Or.inl ⟨rp, List.mem_cons_of_mem _ h1, h2, h3⟩
        · exact Or.inr h'
      · intro r q hq
        rcases i3 r q hq with h' | ⟨rp, h1, h2⟩
        · exact Or.inl h'
        · exact Or.inr ⟨rp, List.mem_cons_of_mem _ h1, h2⟩

theorem fetchPrevious_split {t : Transcript sp} {who : sp.Id} (l : List (RoundId × RequiredParts)) (acc out : Prev sp)
    (h : foldE (fetchPrevious t who) acc l = .ok out) :
    foldE (fun a e => fetch e.2.echo t.echos e.1 who a) acc.echos l = .ok out.echos ∧
      foldE (fun a e => fetch e.2.normal t.normals e.1 who a) acc.normals l = .ok out.normals ∧
      foldE (fun a e => fetch e.2.direct t.directs e.1 who a) acc.directs l = .ok out.directs := by
  induction l generalizing acc with
  | nil =>
    simp only [foldE, Except.ok.injEq] at h
    subst h
    simp [foldE]
  | cons e l ih =>
    simp only [foldE] at h
    split at h
    case h_2 => simp at h
    rename_i acc' hf
    unfold fetchPrevious at hf
    split at hf
    · simp at hf
    · rename_i e1 h1
      split at hf
      · simp at hf
      · rename_i e2 h2
        split at hf
        · simp at hf
        · rename_i e3 h3
          simp only [Except.ok.injEq] at hf
          subst hf
          obtain ⟨i1, i2, i3⟩ := ih _ h
          simp only [foldE, h1, h2, h3]
          exact ⟨i1, i2, i3⟩

theorem fetchCombined_fold {t : Transcript sp} {who : sp.Id} (l : List RoundId) (acc out : Combined sp)
    (h : foldE (fetchCombined t who) acc l = .ok out) :
    (∀ r, r ∈ l → ∃ re n o, r.echo = .ok re ∧ Transcript.getPart t.normals re who = .ok n ∧ t.echos.get? r = some o ∧
        out.echoHashes.get? r = some n ∧ out.otherEchos.get? r = some (o.erase who)) ∧
      ∀ r, r ∉ l → out.echoHashes.get? r = acc.echoHashes.get? r ∧ out.otherEchos.get? r = acc.otherEchos.get? r := by
  induction l generalizing acc with
  | nil =>
    simp only [foldE, Except.ok.injEq] at h
    subst h
    simp
  | cons e l ih =>
    simp only [foldE] at h
    split at h
    case h_2 => simp at h
    rename_i acc' hf
    obtain ⟨i1, i2⟩ := ih acc' h
    unfold fetchCombined at hf
    split at hf
    · simp at hf
    · rename_i re h1
      split at hf
      · simp at hf
      · rename_i n h2
        split at hf
        · simp at hf
        · rename_i o h3
          simp only [Except.ok.injEq] at hf
          subst hf
          unfold Transcript.otherEchoBroadcasts at h3
          split at h3
          · simp at h3
          · rename_i o' h4
            simp only [Except.ok.injEq] at h3
            subst h3
            refine ⟨?_, ?_⟩
            · intro r hr
              by_cases hl : r ∈ l
              · exact i1 r hl
              · rcases List.mem_cons.1 hr with rfl | hr
                · obtain ⟨j1, j2⟩ := i2 r hl
                  exact ⟨re, n, o', h1, h2, h4, by rw [j1]; simp, by rw [j2]; simp⟩
                · exact absurd hr hl
            · intro r hr
              simp only [List.mem_cons, not_or] at hr
              obtain ⟨j1, j2⟩ := i2 r hr.2
              rw [j1, j2]
              simp only
              rw [BMap.get?_insert, BMap.get?_insert, if_neg hr.1, if_neg hr.1]
              exact ⟨rfl, rfl⟩

end Evidence

end Manul
