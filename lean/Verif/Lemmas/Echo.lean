import Verif.Lemmas.Run
import Verif.Spec.Echo
import Verif.Props.Encoding

/-! # Lemmas about the echo round -/

namespace Manul

variable {sp : SP} {P : Proto sp}

theorem decodes_iff {p : Part .normal} {pack : EchoPack sp} :
    Decodes p pack ↔ Evidence.deserializePack sp p = some pack := by
  unfold Decodes Evidence.deserializePack SP.deEcho
  constructor
  · rintro ⟨b, l, hb, hl, hn, hg⟩
    simp only [hb, hl]
    obtain ⟨m, hm⟩ := Option.isSome_iff_exists.1 ((C32_accepts_iff_distinct l).2 hn)
    rw [hm]
    congr 1
    apply BMap.ext
    intro k
    apply Option.ext
    intro v
    rw [C32_exact l m hm, hg]
  · intro h
    cases hb : p.payload with
    | none => simp [hb] at h
    | some b =>
      simp only [hb] at h
      cases hl : sp.deEchoSeq b with
      | none => simp [hl] at h
      | some l =>
        simp only [hl] at h
        exact ⟨b, l, rfl, hl, (C32_accepts_iff_distinct l).1 (by simp [h]), C32_exact l pack h⟩

theorem hash_verify_ok {who : sp.Id} {h : SignedHash} {u : Unit} : h.verify sp who = .ok u ↔ HashSigned who h := by
  unfold SignedHash.verify verifySigned HashSigned
  cases hd : sp.messageDigest h.metadata h.hash with
  | error e => simp
  | ok d =>
    cases hs : sp.deSig h.sig with
    | none => simp
    | some s => cases hv : sp.verify who d s <;> simp [hv]

theorem hash_verify_bad (mt : sp.MetaTotal) {who : sp.Id} {h : SignedHash} (hn : ¬ HashSigned who h) :
    h.verify sp who = .error .invalidSignature ∨ h.verify sp who = .error .signatureMismatch := by
  cases hv : h.verify sp who with
  | ok u => exact absurd (hash_verify_ok.1 hv) hn
  | error e =>
    cases e with
    | invalidSignature => exact Or.inl rfl
    | signatureMismatch => exact Or.inr rfl
    | «local» e =>
      unfold SignedHash.verify verifySigned at hv
      obtain ⟨d, hd⟩ := digest_total mt h.metadata h.hash
      simp only [hd] at hv
      split at hv
      · simp at hv
      · split at hv <;> simp at hv

theorem checkEcho_good {received : BMap sp.Id (SignedPart .echo)} {k : sp.Id} {h : SignedHash} {u : Unit} :
    EchoRd.checkEcho sp received (k, h) = .ok u ↔ EntryGood received k h := by
  unfold EchoRd.checkEcho EntryGood
  cases hr : received.get? k with
  | none => simp
  | some p =>
    simp only
    cases hv : h.verify sp k with
    | ok u =>
      have hs := hash_verify_ok.1 hv
      simp only [Option.some.injEq, exists_eq_left']
      by_cases hm : h.metadata = p.metadata
      · by_cases hh : sp.partHash p.part = h.hash
        · simp [hm, hs, SignedHash.isHashOf, hh]
        · have hh' : ¬ h.hash = sp.partHash p.part := fun e => hh e.symm
          simp [hm, SignedHash.isHashOf, hh, hh']
      · simp [hm]
    | error e =>
      have hs : ¬ HashSigned k h := fun hs => by rw [(hash_verify_ok (u := ())).2 hs] at hv; simp at hv
      cases e <;> simp [hs]

theorem checkEcho_bad (mt : sp.MetaTotal) {received : BMap sp.Id (SignedPart .echo)} {k : sp.Id} {h : SignedHash} :
    (EntryInvalid received k h → EchoRd.checkEcho sp received (k, h) = .error (.echo (.invalidEcho k))) ∧
      (∀ p, EntryMismatch received k h p → EchoRd.checkEcho sp received (k, h) = .error (.echo (.mismatched k p h))) := by
  unfold EchoRd.checkEcho EntryInvalid EntryMismatch
  constructor
  · rintro ⟨p, hp, hb⟩
    simp only [hp]
    by_cases hs : HashSigned k h
    · rw [(hash_verify_ok (u := ())).2 hs]
      rcases hb with hb | hb
      · exact absurd hs hb
      · simp [hb]
    · rcases hash_verify_bad mt hs with hv | hv <;> simp [hv]
  · rintro p ⟨hp, hs, hm, hh⟩
    simp only [hp]
    rw [(hash_verify_ok (u := ())).2 hs]
    have : sp.partHash p.part ≠ h.hash := fun e => hh e.symm
    simp [hm, SignedHash.isHashOf, this]

theorem entry_total {received : BMap sp.Id (SignedPart .echo)} {k : sp.Id} {h : SignedHash} {p : SignedPart .echo}
    (hp : received.get? k = some p) :
    EntryGood received k h ∨ EntryInvalid received k h ∨ EntryMismatch received k h p := by
  unfold EntryGood EntryInvalid EntryMismatch
  by_cases hs : HashSigned k h
  · by_cases hm : h.metadata = p.metadata
    · by_cases hh : h.hash = sp.partHash p.part
      · exact Or.inl ⟨p, hp, hs, hm, hh⟩
      · exact Or.inr (Or.inr ⟨hp, hs, hm, hh⟩)
    · exact Or.inr (Or.inl ⟨p, hp, Or.inr hm⟩)
  · exact Or.inr (Or.inl ⟨p, hp, Or.inl hs⟩)

/-- A check of a sorted list reports the first failure. -/
theorem checkEchos_ok {received : BMap sp.Id (SignedPart .echo)} {l : List (sp.Id × SignedHash)} {u : Unit} :
    EchoRd.checkEchos sp received l = .ok u ↔ ∀ e ∈ l, EntryGood received e.1 e.2 := by
  unfold EchoRd.checkEchos
  induction l with
  | nil => simp [foldE]
  | cons a l ih =>
    obtain ⟨k, h⟩ := a
    simp only [foldE]
    cases hc : EchoRd.checkEcho sp received (k, h) with
    | error e =>
      simp only [reduceCtorEq, false_iff]
      intro hall
      have := (checkEcho_good (u := ())).2 (hall (k, h) (List.mem_cons_self ..))
      rw [hc] at this
      simp at this
    | ok v =>
      cases v
      simp only [ih]
      have := checkEcho_good.1 hc
      simp [this]

theorem checkEchos_error {received : BMap sp.Id (SignedPart .echo)} {l : List (sp.Id × SignedHash)}
    (hl : l.Pairwise (fun a b => a.1 < b.1)) {k : sp.Id} {h : SignedHash} {err : RecvErr sp} (hm : (k, h) ∈ l)
    (he : EchoRd.checkEcho sp received (k, h) = .error err)
    (hg : ∀ k' h', k' < k → (k', h') ∈ l → EntryGood received k' h') :
    EchoRd.checkEchos sp received l = .error err := by
  unfold EchoRd.checkEchos
  induction l with
  | nil => simp at hm
  | cons a l ih =>
    obtain ⟨k0, h0⟩ := a
    rw [List.pairwise_cons] at hl
    simp only [foldE]
    rcases List.mem_cons.1 hm with heq | hm'
    · simp only [Prod.mk.injEq] at heq
      obtain ⟨rfl, rfl⟩ := heq
      simp [he]
    · have hlt := hl.1 (k, h) hm'
      have := (checkEcho_good (u := ())).2 (hg k0 h0 hlt (List.mem_cons_self ..))
      simp only [this]
      exact ih hl.2 hm' (fun k' h' hk hm => hg k' h' hk (List.mem_cons_of_mem _ hm))

theorem first_bad {received : BMap sp.Id (SignedPart .echo)} {l : List (sp.Id × SignedHash)}
    (hl : l.Pairwise (fun a b => a.1 < b.1)) :
    (∀ e ∈ l, EntryGood received e.1 e.2) ∨
      ∃ k h, (k, h) ∈ l ∧ ¬ EntryGood received k h ∧ ∀ k' h', k' < k → (k', h') ∈ l → EntryGood received k' h' := by
  induction l with
  | nil => simp
  | cons a l ih =>
    obtain ⟨k0, h0⟩ := a
    rw [List.pairwise_cons] at hl
    by_cases hg : EntryGood received k0 h0
    · rcases ih hl.2 with hall | ⟨k, h, hm, hb, hb'⟩
      · left
        intro e he
        rcases List.mem_cons.1 he with rfl | he
        · exact hg
        · exact hall e he
      · right
        refine ⟨k, h, List.mem_cons_of_mem _ hm, hb, ?_⟩
        intro k' h' hk hm'
        rcases List.mem_cons.1 hm' with heq | hm'
        · simp only [Prod.mk.injEq] at heq
          obtain ⟨rfl, rfl⟩ := heq
          exact hg
        · exact hb' k' h' hk hm'
    · right
      refine ⟨k0, h0, List.mem_cons_self .., hg, ?_⟩
      intro k' h' hk hm'
      rcases List.mem_cons.1 hm' with heq | hm'
      · simp only [Prod.mk.injEq] at heq
        obtain ⟨rfl, rfl⟩ := heq
        exact absurd hk (lt_irrefl _)
      · exact absurd hk (not_lt.2 (hl.1 _ hm').le)

/-! ## Keys -/

theorem missing_iff {e : EchoRd P} {sender : sp.Id} {pack : EchoPack sp} :
    (BSet.diff (e.info.expectedEchos.erase sender) pack.keys).isEmpty = true ↔
      ∀ k, e.info.expectedEchos.contains k = true → k ≠ sender → ∃ h, pack.get? k = some h := by
  rw [BMap.isEmpty_iff_contains]
  constructor
  · intro h k hk hs
    have := h k
    rw [BSet.contains_diff, BMap.contains_erase, BMap.contains_keys] at this
    rw [← BMap.contains_iff]
    by_contra hc
    simp [hk, hs, hc] at this
  · intro h k
    rw [BSet.contains_diff, BMap.contains_erase, BMap.contains_keys]
    by_contra hc
    simp only [Bool.not_eq_false, Bool.and_eq_true, Bool.not_eq_true', decide_eq_true_eq] at hc
    obtain ⟨⟨hs, hk⟩, hn⟩ := hc
    have := BMap.contains_iff.2 (h k hk hs)
    simp [this] at hn

theorem extra_iff {e : EchoRd P} {sender : sp.Id} {pack : EchoPack sp} :
    (BSet.diff pack.keys (e.info.expectedEchos.erase sender)).isEmpty = true ↔
      ∀ k h, pack.get? k = some h → e.info.expectedEchos.contains k = true ∧ k ≠ sender := by
  rw [BMap.isEmpty_iff_contains]
  constructor
  · intro h k v hv
    have := h k
    rw [BSet.contains_diff, BMap.contains_erase, BMap.contains_keys] at this
    have hc := BMap.contains_iff.2 ⟨v, hv⟩
    by_contra hn
    have : e.info.expectedEchos.contains k = true ∧ k ≠ sender := by
      simp only [hc, Bool.true_and, Bool.not_eq_false', Bool.and_eq_true, decide_eq_true_eq] at this
      exact ⟨this.2, this.1⟩
    exact hn this
  · intro h k
    rw [BSet.contains_diff, BMap.contains_erase, BMap.contains_keys]
    cases hc : pack.contains k with
    | false => simp
    | true =>
      obtain ⟨v, hv⟩ := BMap.contains_iff.1 hc
      obtain ⟨h1, h2⟩ := h k v hv
      simp [h1, h2]

theorem receivePack_exact {e : EchoRd P} {sender : sp.Id} {pack : EchoPack sp} (h : KeysExact e sender pack) :
    e.receivePack sender pack = EchoRd.checkEchos sp e.echoBroadcasts pack.toList := by
  unfold EchoRd.receivePack
  have h1 : (BSet.diff (e.info.expectedEchos.erase sender) pack.keys).isEmpty = true :=
    missing_iff.2 fun k hk hs => (h k).2 ⟨hk, hs⟩
  have h2 : (BSet.diff pack.keys (e.info.expectedEchos.erase sender)).isEmpty = true :=
    extra_iff.2 fun k v hv => (h k).1 ⟨v, hv⟩
  simp [h1, h2]

theorem receive_pack {e : EchoRd P} {sender : sp.Id} {m : DynMsg} {pack : EchoPack sp} (he : m.echo.payload = none)
    (hd : m.direct.payload = none) (hp : Decodes m.normal pack) : e.receive sender m = e.receivePack sender pack := by
  unfold EchoRd.receive Part.isNone
  simp [he, hd, decodes_iff.1 hp]

/-! ## What a round stores -/

/-- What is stored for a party, and why. -/
structure SInv (s : Session P) (x : sp.Id) (l : Loc P) : Prop where
  absent : l.payload = none → l.echo = none ∧ l.normal = none ∧ l.direct = none
  present : ∀ v, l.payload = some v → ∃ vm : VerifiedMessage sp, vm.sender = x ∧
    Authentic x s.sessionId s.roundId vm.direct vm.echo vm.normal ∧ s.round.receive x vm.dyn = .ok v ∧
    l.echo = Loc.storePart none vm.echo ∧ l.normal = Loc.storePart none vm.normal ∧ l.direct = Loc.storePart none vm.direct
  evidence : ∀ ev, l.provable = some ev → ∃ vm : VerifiedMessage sp, vm.sender = x ∧
    Authentic x s.sessionId s.roundId vm.direct vm.echo vm.normal ∧ Recorded s.transcript (s.process vm) ev

theorem SInv.added {s : Session P} {x : sp.Id} {l l' : Loc P} {vm : VerifiedMessage sp} (h : SInv s x l)
    (hn : l.payload = none) (hvm : vm.sender = x)
    (hau : Authentic x s.sessionId s.roundId vm.direct vm.echo vm.normal)
    (ha : Added s.transcript (s.process vm) l l') : SInv s x l' := by
  obtain ⟨h1, h2, h3⟩ := h
  cases ha with
  | payload hr =>
    obtain ⟨e1, e2, e3⟩ := h1 hn
    refine ⟨by simp, ?_, h3⟩
    intro w hw
    simp only [Option.some.injEq] at hw
    subst hw
    subst hvm
    exact ⟨vm, rfl, hau, hr, by simp only [e1]; rfl, by simp only [e2]; rfl, by simp only [e3]; rfl⟩
  | provable _ hrec =>
    refine ⟨h1, h2, ?_⟩
    intro ev hev
    simp only [Option.some.injEq] at hev
    subst hev
    exact ⟨vm, hvm, hau, hrec⟩
  | unprovable _ => exact ⟨h1, h2, h3⟩

theorem seqRound_sinv {s : Session P} {rng : sp.Rng} {cached : List (VerifiedMessage sp)}
    {l : List (sp.Id × Message sp)} {b : Accum P} (h : SeqRound s rng cached l b)
    (hc : ∀ vm ∈ cached, Authentic vm.sender s.sessionId s.roundId vm.direct vm.echo vm.normal) (x : sp.Id) :
    SInv s x (b.loc x) := by
  refine seqRound_inv h ?_ ?_ ?_ ?_ x
  · intro x
    constructor <;> simp [Session.makeAccum, Accum.loc, Accum.new]
  · intro x p u u' hi hu
    obtain ⟨-, rfl⟩ := art_ok hu
    obtain ⟨h1, h2, h3⟩ := hi
    exact ⟨h1, h2, h3⟩
  · intro vm u u' hvm hi hu
    obtain ⟨hn, -, ha⟩ := add_ok hu
    exact hi.added hn rfl (hc vm hvm) ha
  · intro x m u u' hi hu
    cases deliver_cases hu with
    | ignored _ => exact hi
    | refused _ _ =>
      obtain ⟨h1, h2, h3⟩ := hi
      exact ⟨h1, h2, h3⟩
    | processed _ _ _ hau hn _ hadd =>
      have hi' : SInv s x { u with processing := true } := by
        obtain ⟨h1, h2, h3⟩ := hi
        exact ⟨h1, h2, h3⟩
      exact hi'.added (vm := verifiedOf x m) hn rfl hau hadd
    | kept _ _ _ _ _ _ _ =>
      obtain ⟨h1, h2, h3⟩ := hi
      exact ⟨h1, h2, h3⟩

/-- The invariant holds in every round of a run. -/
theorem inRound_sinv {s₀ s : Session P} {trail : List (Session P × Accum P)} {a : Accum P} (hp : Proper s₀)
    (hm : ∃ r, s₀.round = .main r) (h : InRound s₀ trail s a) (x : sp.Id) : SInv s x (a.loc x) := by
  obtain ⟨cached, rng, l, hv, hs⟩ := h
  have hi := visits_inv hp hm hv
  exact seqRound_sinv hs (by rw [hi.sessionId]; exact hi.authentic) x

/-! ## The echo round of a run -/

/-- What an echo round in a run holds. -/
structure EInv (s₀ : Session P) (s : Session P) (e : EchoRd P) : Prop where
  round : s.round = .echo e
  proper : Proper s
  sessionId : s.sessionId = s₀.sessionId
  signer : s.signer = s₀.signer
  verifier : e.verifier = s.me
  follows : EchoFollows P e.main
  info : (∃ t, (P.comm e.main).participation = .receive t ∧ e.info = ⟨t, t, (P.comm e.main).expecting⟩) ∨
    ((P.comm e.main).participation = .default ∧
      e.info = ⟨(P.comm e.main).destinations, (P.comm e.main).destinations, BSet.insert (P.comm e.main).expecting s.me⟩)
  own : ∃ p rng, e.echoBroadcasts.get? s.me = some p ∧
    SignedPart.new sp rng s.signer s.sessionId (P.transition e.main).id p.part = .ok p
  others : ∀ k, k ≠ s.me → ∀ p, e.echoBroadcasts.get? k = some p →
    AuthenticPart k s.sessionId (P.transition e.main).id p ∧ p.part.isNone = false ∧
      (P.comm e.main).expecting.contains k = true
  complete : EchoStrict P → ∀ k, k ≠ s.me → (P.comm e.main).expecting.contains k = true →
    ∃ p, e.echoBroadcasts.get? k = some p

theorem echoFollows_of_info {s : Session P} (hp : Proper s) {r : P.Rd} (hr : s.round = .main r) {info : EchoInfo sp.Id}
    (hi : s.echoInfo = some info) :
    EchoFollows P r ∧ ((∃ t, (P.comm r).participation = .receive t ∧ info = ⟨t, t, (P.comm r).expecting⟩) ∨
    ((P.comm r).participation = .default ∧
      info = ⟨(P.comm r).destinations, (P.comm r).destinations, BSet.insert (P.comm r).expecting s.me⟩)) := by
  obtain ⟨-, hcm⟩ := roundId_main hp hr
  have he := hp.echoInfo
  rw [hi, hcm] at he
  unfold Session.makeEchoInfo at he
  unfold EchoFollows
  cases hpart : (P.comm r).participation with
  | send => simp [hpart] at he
  | receive t =>
    simp only [hpart, Option.some.injEq] at he
    exact ⟨Or.inl ⟨t, rfl⟩, Or.inl ⟨t, rfl, he⟩⟩
  | default =>
    simp only [hpart] at he
    cases hn : s.echo.part.isNone with
    | true => simp [hn] at he
    | false =>
      simp only [hn, Bool.not_false, if_true, Option.some.injEq] at he
      refine ⟨Or.inr ⟨rfl, ?_⟩, Or.inr ⟨rfl, he⟩⟩
      obtain ⟨rng, hmk⟩ := hp.echoPart
      split at hmk
      · simp only [Except.ok.injEq] at hmk
        rw [← hmk] at hn
        simp [Part.none, Part.isNone] at hn
      · rw [hr] at hmk
        exact ⟨rng, s.echo.part, hmk, hn⟩

theorem visits_einv {s₀ s : Session P} {trail : List (Session P × Accum P)} {cached : List (VerifiedMessage sp)}
    {e : EchoRd P} (hp : Proper s₀) (hm : ∃ r, s₀.round = .main r) (h : Visits s₀ trail s cached)
    (he : s.round = .echo e) : EInv s₀ s e := by
  cases h with
  | first =>
    obtain ⟨r, hr⟩ := hm
    rw [hr] at he
    simp at he
  | @next trail s1 _ cached1 _ rng rng' l a hv hseq hy hf =>
    have hvi := visits_inv hp hm hv
    have hsi := seqRound_sinv hseq (by rw [hvi.sessionId]; exact hvi.authentic)
    obtain ⟨t, hu, hfin⟩ := finalizeRound_ok hf
    cases hfin with
    | toNext hi hr hc hns hrid =>
      rw [hns.round] at he
      simp at he
    | @toEcho info r _ ebs hi hr hget hns =>
      have hee : e = ⟨s1.me, ebs, info, r, a.payloads, a.artifacts⟩ := by
        rw [hns.round] at he
        simpa using he.symm
      obtain ⟨htr, hcm⟩ := roundId_main hvi.proper hr
      obtain ⟨hfol, hinfo⟩ := echoFollows_of_info hvi.proper hr hi
      have hme : s.me = s1.me := by rw [hns.me, hvi.proper.me]
      have hebs : ebs = a.echos.insert s1.me s1.echo := by
        rw [hu.echos, BMap.get?_insert] at hget
        simpa using hget.symm
      have hother : ∀ k, k ≠ s.me → ebs.get? k = (a.loc k).echo := by
        intro k hk
        rw [hebs, BMap.get?_insert, if_neg (by rw [← hme]; exact hk)]
        rfl
      refine ⟨he, hns.proper, hns.sessionId.trans hvi.sessionId, hns.signer.trans hvi.signer, by rw [hee, hme],
        by rw [hee]; exact hfol, by rw [hee, hme]; exact hinfo, ?_, ?_, ?_⟩
      · obtain ⟨rng0, hn⟩ := hvi.proper.echo
        refine ⟨s1.echo, rng0, ?_, ?_⟩
        · rw [hee]
          simp only
          rw [hebs, BMap.get?_insert, if_pos hme]
        · rw [hee, hns.signer, hns.sessionId]
          rw [htr] at hn
          exact hn
      · intro k hk p hpk
        rw [hee] at hpk ⊢
        simp only at hpk ⊢
        rw [hother k hk] at hpk
        cases hpay : (a.loc k).payload with
        | none =>
          rw [((hsi k).absent hpay).1] at hpk
          simp at hpk
        | some v =>
          obtain ⟨vm, hs, hau, hrc, h1, -, -⟩ := (hsi k).present v hpay
          rw [h1] at hpk
          rcases storePart_some hpk with h | ⟨rfl, h⟩
          · simp at h
          · refine ⟨?_, h, ?_⟩
            · rw [hns.sessionId, ← htr]
              exact hau.2.1
            · rw [← hcm, ← yes_keys (seqRound_reach hseq) hy k, BMap.contains_iff]
              exact ⟨v, hpay⟩
      · intro hstrict k hk hexp
        rw [hee] at hexp ⊢
        simp only at hexp ⊢
        rw [← hcm, ← yes_keys (seqRound_reach hseq) hy k] at hexp
        obtain ⟨v, hv⟩ := BMap.contains_iff.1 hexp
        obtain ⟨vm, hs, hau, hrc, h1, -, -⟩ := (hsi k).present v hv
        rw [hr] at hrc
        obtain ⟨w, -, hw⟩ := main_receive hrc
        have hne := hstrict r k vm.dyn w hfol hw
        rw [hother k hk, h1]
        refine ⟨vm.echo, ?_⟩
        unfold Loc.storePart
        have : vm.echo.part.isNone = false := hne
        simp [this]

/-- The entries of an honest pack. -/
theorem pack_get {e : EchoRd P} {k : sp.Id} {h : SignedHash} :
    e.pack.get? k = some h ↔ k ≠ e.verifier ∧ ∃ p, e.echoBroadcasts.get? k = some p ∧ h = p.toSignedHash sp := by
  unfold EchoRd.pack
  rw [BMap.get?_mapVal, BMap.get?_erase]
  by_cases hk : k = e.verifier
  · simp [hk]
  · simp [hk, eq_comm]

end Manul
