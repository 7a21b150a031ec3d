import Verif.Spec.Open
import Verif.Lemmas.Byzantine
import Verif.Props.Transcript

/-! # Invariants of the network controlled by an adversary -/

namespace Manul

variable {sp : SP} {P : Proto sp}

/-! ## Round ids of a run -/

theorem visits_proper {s₀ s : Session P} {trail : List (Session P × Accum P)} {cached : List (VerifiedMessage sp)}
    (hp : Proper s₀) (hm : ∃ r, s₀.round = .main r) (h : Visits s₀ trail s cached) :
    ∀ s' ∈ trail.map Prod.fst ++ [s], Proper s' ∧ s'.sessionId = s₀.sessionId ∧ s'.signer = s₀.signer := by
  have hlast : Proper s ∧ s.sessionId = s₀.sessionId ∧ s.signer = s₀.signer :=
    ⟨(visits_inv hp hm h).proper, (visits_inv hp hm h).sessionId, (visits_inv hp hm h).signer⟩
  induction h with
  | first => intro s' hs'; simp at hs'; subst hs'; exact hlast
  | @next trail s s1 cached cached' rng rng' l a hv hseq hy hf ih =>
    intro s' hs'
    rcases List.mem_append.1 hs' with hs' | hs'
    · refine ih ⟨(visits_inv hp hm hv).proper, (visits_inv hp hm hv).sessionId, (visits_inv hp hm hv).signer⟩ s' ?_
      simpa using hs'
    · simp only [List.mem_singleton] at hs'
      subst hs'
      exact hlast

/-- What is recorded for a round of the run. -/
theorem visits_ids {s₀ s : Session P} {trail : List (Session P × Accum P)} {cached : List (VerifiedMessage sp)}
    (h : Visits s₀ trail s cached) :
    (∀ q ∈ trail, s.transcript.echos.contains q.1.transition.id = true) ∧
      (trail.map (fun q => q.1.transition.id)).Nodup := by
  induction h with
  | first => simp
  | @next trail s s' cached cached' rng rng' l a hv hseq hy hf ih =>
    have hu := finalized_transcript hf
    constructor
    · intro q hq
      rw [hu.echos, BMap.contains_insert]
      rcases List.mem_append.1 hq with hq | hq
      · simp [ih.1 q hq]
      · simp only [List.mem_singleton] at hq
        subst hq
        simp [Session.roundId]
    · rw [List.map_append, List.nodup_append]
      refine ⟨ih.2, by simp, ?_⟩
      intro a ha b hb hab
      subst hab
      obtain ⟨q, hq, rfl⟩ := List.mem_map.1 ha
      simp only [List.map_cons, List.map_nil, List.mem_singleton] at hb
      have h1 := ih.1 q hq
      have h2 := hu.freshE
      rw [hb] at h1
      unfold Session.roundId at h2
      rw [h1] at h2
      simp at h2

/-- The main round of an echo round comes before it in the run. -/
theorem visits_main {s₀ s : Session P} {trail : List (Session P × Accum P)} {cached : List (VerifiedMessage sp)}
    (hp : Proper s₀) (hm : ∃ r, s₀.round = .main r) (h : Visits s₀ trail s cached) {e : EchoRd P} (he : s.round = .echo e) :
    ∃ tr q, trail = tr ++ [q] ∧ q.1.transition.id.echo = .ok s.transition.id := by
  cases h with
  | first =>
    obtain ⟨r, hr⟩ := hm
    rw [hr] at he
    simp at he
  | @next trail s1 _ cached cached' rng rng' l a hv hseq hy hf =>
    refine ⟨trail, (s1, a), rfl, ?_⟩
    rcases C13_declared (visits_inv hp hm hv).proper hf with ⟨r, e', -, -, -, h4⟩ | ⟨r, h1, -⟩
    · exact h4
    · rw [he] at h1
      simp at h1

theorem echo_inj {a b c : RoundId} (ha : a.echo = .ok c) (hb : b.echo = .ok c) : a = b := by
  unfold RoundId.echo at ha hb
  split at ha
  · simp at ha
  · split at hb
    · simp at hb
    · rename_i h1 h2
      simp only [Except.ok.injEq] at ha hb
      subst ha
      cases a
      cases b
      simp_all

theorem visits_prefix {s₀ s : Session P} {trail : List (Session P × Accum P)} {cached : List (VerifiedMessage sp)}
    (hv : Visits s₀ trail s cached) : ∀ s1 ∈ trail.map Prod.fst, ∃ tr c, Visits s₀ tr s1 c ∧ tr.length < trail.length ∧
      ∃ t2, trail = tr ++ t2 := by
  induction hv with
  | first => simp
  | @next trail s s' cached cached' rng rng' l a hv hseq hy hf ih =>
    intro s1 hs1
    rw [List.map_append, List.mem_append] at hs1
    rcases hs1 with hs1 | hs1
    · obtain ⟨tr, c, h1, h2, t2, h3⟩ := ih s1 hs1
      exact ⟨tr, c, h1, by simp; omega, t2 ++ [(s, a)], by rw [h3]; simp⟩
    · simp only [List.map_cons, List.map_nil, List.mem_singleton] at hs1
      subst hs1
      exact ⟨trail, cached, hv, by simp, _, rfl⟩

/-- No echo round id occurs twice in a run. -/
theorem visits_echo_unique {s₀ s : Session P} {trail : List (Session P × Accum P)} {cached : List (VerifiedMessage sp)}
    (hp : Proper s₀) (hm : ∃ r, s₀.round = .main r) (h : Visits s₀ trail s cached) :
    ∀ s1 ∈ trail.map Prod.fst ++ [s], ∀ s2 ∈ trail.map Prod.fst ++ [s], ∀ e1 e2, s1.round = .echo e1 → s2.round = .echo e2 →
      s1.transition.id = s2.transition.id → s1 = s2 := by
  have key : ∀ {trail : List (Session P × Accum P)} {s : Session P} {cached : List (VerifiedMessage sp)},
      Visits s₀ trail s cached → ∀ e, s.round = .echo e → ∀ s1 ∈ trail.map Prod.fst, ∀ e1, s1.round = .echo e1 →
        s1.transition.id = s.transition.id → (∃ tr s2 c, Visits s₀ tr s2 c ∧ s2 = s1 ∧ tr.length < trail.length ∧
          ∃ t2, trail = tr ++ t2) → False := by
    intro trail s cached hv e he s1 hs1 e1 he1 hid ⟨tr, s2, c, hv2, h2, hlt, t2, ht⟩
    subst h2
    obtain ⟨tra, qa, ha1, ha2⟩ := visits_main hp hm hv he
    obtain ⟨trb, qb, hb1, hb2⟩ := visits_main hp hm hv2 he1
    rw [hid] at hb2
    have hq := echo_inj ha2 hb2
    have hn := (visits_ids hv).2
    rw [ht, hb1] at ha1
    subst hb1
    rcases List.eq_nil_or_concat t2 with h | ⟨t3, q3, h⟩
    · subst h
      rw [ht] at hlt
      simp at hlt
    · subst h
      rw [List.concat_eq_append, ← List.append_assoc] at ha1
      obtain ⟨-, h3⟩ := List.append_inj' ha1 rfl
      simp only [List.cons.injEq, and_true] at h3
      subst h3
      rw [ht] at hn
      simp only [List.map_append, List.map_cons, List.map_nil, List.nodup_append, List.concat_eq_append] at hn
      exact hn.2.2 qb.1.transition.id (by simp) q3.1.transition.id (by simp) hq.symm
  induction h with
  | first =>
    intro s1 h1 s2 h2
    simp at h1 h2
    simp [h1, h2]
  | @next trail s s' cached cached' rng rng' l a hv hseq hy hf ih =>
    have hv' := Visits.next hv hseq hy hf
    intro s1 g1 s2 g2 e1 e2 he1 he2 hid
    rw [List.mem_append, List.mem_singleton] at g1 g2
    rcases g1 with h1 | h1
    · rcases g2 with h2 | h2
      · exact ih s1 (by simpa using h1) s2 (by simpa using h2) e1 e2 he1 he2 hid
      · subst h2
        obtain ⟨tr, c, h3, h4, h5⟩ := visits_prefix hv' s1 h1
        exact (key hv' e2 he2 s1 h1 e1 he1 hid ⟨tr, s1, c, h3, rfl, h4, h5⟩).elim
    · subst h1
      rcases g2 with h2 | h2
      · obtain ⟨tr, c, h3, h4, h5⟩ := visits_prefix hv' s2 h2
        exact (key hv' e1 he1 s2 h2 e2 he2 hid.symm ⟨tr, s2, c, h3, rfl, h4, h5⟩).elim
      · rw [h2]

/-! ## Steps -/

theorem enter_cases {s : Session P} {rng : sp.Rng} {cached : List (VerifiedMessage sp)} {st : RunState P}
    {out : List (Message sp)} (h : enterRound s rng cached = (st, out)) :
    (∃ e, st = .done (.error e) ∧ out = []) ∨ ∃ a, st = .running s a ∧ startRound s rng cached = .ok (a, out) := by
  unfold enterRound at h
  split at h
  · rename_i e _
    simp only [Prod.mk.injEq] at h
    exact Or.inl ⟨e, h.1.symm, h.2.symm⟩
  · rename_i a o hs
    simp only [Prod.mk.injEq] at h
    obtain ⟨rfl, rfl⟩ := h
    exact Or.inr ⟨a, rfl, hs⟩

/-- The possible steps of a party in a round. -/
theorem step_full {s : Session P} {a : Accum P} {ev : Event sp} {st' : RunState P} {out : List (Message sp)}
    (h : step (.running s a) ev = some (st', out)) :
    (out = [] ∧ ∃ r, st' = .done r) ∨
      (out = [] ∧ ∃ x m a', ev = .deliver x m ∧ deliver s a x m = .ok a' ∧ st' = .running s a') ∨
      (∃ rng rng' s' cached', a.canFinalize = .yes ∧ s.finalizeRound rng a = .ok (.anotherRound s' cached') ∧
        enterRound s' rng' cached' = (st', out)) := by
  unfold step at h
  cases hc : a.canFinalize with
  | yes =>
    cases ev with
    | tick rng =>
      simp only [hc, Option.some.injEq] at h
      unfold finishRound at h
      cases hf : s.finalizeRound (sp.fork rng 0) a with
      | error e =>
        simp only [hf, Prod.mk.injEq] at h
        exact Or.inl ⟨h.2.symm, _, h.1.symm⟩
      | ok o =>
        cases o with
        | finished r =>
          simp only [hf, Prod.mk.injEq] at h
          exact Or.inl ⟨h.2.symm, _, h.1.symm⟩
        | anotherRound s' cached' =>
          simp only [hf] at h
          exact Or.inr (Or.inr ⟨_, _, s', cached', rfl, hf, h⟩)
    | deliver _ _ => simp [hc] at h
    | cancel => simp [hc] at h
    | close => simp [hc] at h
  | never =>
    cases ev with
    | tick rng =>
      simp only [hc, Option.some.injEq, Prod.mk.injEq] at h
      exact Or.inl ⟨h.2.symm, _, h.1.symm⟩
    | deliver _ _ => simp [hc] at h
    | cancel => simp [hc] at h
    | close => simp [hc] at h
  | notYet =>
    cases ev with
    | tick rng => simp [hc] at h
    | deliver x m =>
      simp only [hc] at h
      cases hd : deliver s a x m with
      | error e =>
        simp only [hd, Option.some.injEq, Prod.mk.injEq] at h
        exact Or.inl ⟨h.2.symm, _, h.1.symm⟩
      | ok a' =>
        simp only [hd, Option.some.injEq, Prod.mk.injEq] at h
        exact Or.inr (Or.inl ⟨h.2.symm, x, m, a', rfl, hd, h.1.symm⟩)
    | cancel =>
      simp only [hc, Option.some.injEq, Prod.mk.injEq] at h
      exact Or.inl ⟨h.2.symm, _, h.1.symm⟩
    | close =>
      simp only [hc, Option.some.injEq, Prod.mk.injEq] at h
      exact Or.inl ⟨h.2.symm, _, h.1.symm⟩

/-- An invariant of sending and of applying the cached messages holds when the round has started. -/
theorem startRound_inv {s : Session P} {rng : sp.Rng} {cached : List (VerifiedMessage sp)} {b : Accum P}
    {I : sp.Id → Loc P → Prop} (h : SeqRound s rng cached [] b) (h0 : ∀ x, I x ((s.makeAccum).loc x))
    (hart : ∀ x p u u', I x u → Loc.art p u = .ok u' → I x u')
    (happ : ∀ vm u u', vm ∈ cached → I vm.sender u → Loc.add s.transcript (s.process vm) u = .ok u' → I vm.sender u')
    (x : sp.Id) : I x (b.loc x) := by
  have hx := (seqRound_loc.1 h).2 x
  unfold SeqLoc at hx
  have key : ∀ (ops : List (SeqOp P)) (u v : Loc P),
      (∀ op ∈ ops, op.party = x ∧ (∀ vm, op = .add vm → vm ∈ cached) ∧ ∀ y m, op ≠ .del y m) →
        foldE (SeqOp.loc s) u ops = .ok v → I x u → I x v := by
    intro ops
    induction ops with
    | nil =>
      intro u v _ h hu
      simp only [foldE, Except.ok.injEq] at h
      exact h ▸ hu
    | cons op ops ih =>
      intro u v hops h hu
      simp only [foldE] at h
      cases ho : SeqOp.loc s u op with
      | error e => simp [ho] at h
      | ok u1 =>
        simp only [ho] at h
        refine ih u1 v (fun o ho => hops o (List.mem_cons_of_mem _ ho)) h ?_
        obtain ⟨hp, hc, hd⟩ := hops op (List.mem_cons_self ..)
        cases op with
        | out o =>
          simp only [SeqOp.loc, outLoc] at ho
          obtain ⟨d, r⟩ := o
          cases r with
          | error e => simp at ho
          | ok r => exact hart _ _ _ _ hu ho
        | add vm =>
          simp only [SeqOp.party] at hp
          subst hp
          exact happ vm _ _ (hc vm rfl) hu ho
        | del y m => exact absurd rfl (hd y m)
  refine key _ _ _ ?_ hx (h0 x)
  intro op hop
  rw [List.mem_filter] at hop
  refine ⟨by simpa using hop.2, ?_⟩
  have := hop.1
  unfold seqOps at this
  simp only [List.mem_append, List.mem_map, List.not_mem_nil, false_and, exists_false, or_false] at this
  rcases this with ⟨o, -, rfl⟩ | ⟨v, hv, rfl⟩
  · simp
  · simpa using hv

/-! ## What is accepted -/

/-- What is stored for a party satisfies `Q`. -/
structure QInv (Q : SignedPart .direct → SignedPart .echo → SignedPart .normal → Prop) (s : Session P) (x : sp.Id)
    (l : Loc P) : Prop where
  absent : l.payload = none → l.echo = none ∧ l.normal = none ∧ l.direct = none
  present : ∀ v, l.payload = some v → ∃ vm : VerifiedMessage sp, vm.sender = x ∧ Q vm.direct vm.echo vm.normal ∧
    Authentic x s.sessionId s.roundId vm.direct vm.echo vm.normal ∧ s.round.receive x vm.dyn = .ok v ∧
    l.echo = Loc.storePart none vm.echo ∧ l.normal = Loc.storePart none vm.normal ∧ l.direct = Loc.storePart none vm.direct
  cached : ∀ m, l.cached = some m → ∀ r vm, m.get? r = some vm → Q vm.direct vm.echo vm.normal
  proved : ∀ ev, l.provable = some ev → ∃ vm : VerifiedMessage sp, vm.sender = x ∧ Q vm.direct vm.echo vm.normal ∧
    Authentic x s.sessionId s.roundId vm.direct vm.echo vm.normal ∧ Recorded s.transcript (s.process vm) ev

variable {Q Q' : SignedPart .direct → SignedPart .echo → SignedPart .normal → Prop}

theorem QInv.mono {s : Session P} {x : sp.Id} {l : Loc P} (h : QInv Q s x l) (hq : ∀ d e n, Q d e n → Q' d e n) :
    QInv Q' s x l := by
  refine ⟨h.absent, ?_, fun m hm r vm hr => hq _ _ _ (h.cached m hm r vm hr), ?_⟩
  · intro v hv
    obtain ⟨vm, h1, h2, h3⟩ := h.present v hv
    exact ⟨vm, h1, hq _ _ _ h2, h3⟩
  · intro ev hev
    obtain ⟨vm, h1, h2, h3⟩ := h.proved ev hev
    exact ⟨vm, h1, hq _ _ _ h2, h3⟩

theorem QInv.added {s : Session P} {x : sp.Id} {l l' : Loc P} {vm : VerifiedMessage sp} (h : QInv Q s x l)
    (hn : l.payload = none) (hvm : vm.sender = x) (hq : Q vm.direct vm.echo vm.normal)
    (hau : Authentic x s.sessionId s.roundId vm.direct vm.echo vm.normal)
    (ha : Added s.transcript (s.process vm) l l') : QInv Q s x l' := by
  obtain ⟨h1, h2, h3, h4⟩ := h
  cases ha with
  | payload hr =>
    obtain ⟨e1, e2, e3⟩ := h1 hn
    refine ⟨by simp, ?_, h3, h4⟩
    intro w hw
    simp only [Option.some.injEq] at hw
    subst hw
    subst hvm
    exact ⟨vm, rfl, hq, hau, hr, by simp only [e1]; rfl, by simp only [e2]; rfl, by simp only [e3]; rfl⟩
  | @provable ev _ hrec =>
    refine ⟨h1, h2, h3, ?_⟩
    intro ev' hev
    simp only [Option.some.injEq] at hev
    subst hev
    exact ⟨vm, hvm, hq, hau, hrec⟩
  | unprovable _ => exact ⟨h1, h2, h3, h4⟩

theorem QInv.start {s : Session P} {rng : sp.Rng} {cached : List (VerifiedMessage sp)} {b : Accum P}
    (h : SeqRound s rng cached [] b)
    (hc : ∀ vm ∈ cached, Authentic vm.sender s.sessionId s.roundId vm.direct vm.echo vm.normal)
    (hq : ∀ vm ∈ cached, Q vm.direct vm.echo vm.normal) (x : sp.Id) : QInv Q s x (b.loc x) := by
  refine startRound_inv h ?_ ?_ ?_ x
  · intro x
    constructor <;> simp [Session.makeAccum, Accum.loc, Accum.new]
  · intro x p u u' hi hu
    obtain ⟨-, rfl⟩ := art_ok hu
    obtain ⟨h1, h2, h3, h4⟩ := hi
    exact ⟨h1, h2, h3, h4⟩
  · intro vm u u' hvm hi hu
    obtain ⟨hn, -, ha⟩ := add_ok hu
    exact hi.added hn rfl (hq vm hvm) (hc vm hvm) ha

theorem QInv.deliver {s : Session P} {a a' : Accum P} {y : sp.Id} {m : Message sp} (h : ∀ x, QInv Q s x (a.loc x))
    (hq : Q m.direct m.echo m.normal) (hd : Manul.deliver s a y m = .ok a') (x : sp.Id) : QInv Q s x (a'.loc x) := by
  rw [deliver_loc] at hd
  cases hl : Loc.deliver s y m (a.loc y) with
  | error e => simp [hl, liftLoc] at hd
  | ok l' =>
    simp only [hl, liftLoc, Except.ok.injEq] at hd
    subst hd
    by_cases hx : x = y
    · subst hx
      rw [Accum.loc_setLoc_same]
      have hi := h x
      cases deliver_cases hl with
      | ignored _ => exact hi
      | refused _ _ =>
        obtain ⟨h1, h2, h3, h4⟩ := hi
        exact ⟨h1, h2, h3, h4⟩
      | processed _ _ _ hau hn _ hadd =>
        have hi' : QInv Q s x { a.loc x with processing := true } := by
          obtain ⟨h1, h2, h3, h4⟩ := hi
          exact ⟨h1, h2, h3, h4⟩
        exact hi'.added (vm := verifiedOf x m) hn rfl hq hau hadd
      | kept _ _ _ hvm _ _ _ =>
        obtain ⟨h1, h2, h3, h4⟩ := hi
        refine ⟨h1, h2, ?_, h4⟩
        intro c hc r vm hr
        simp only [Option.some.injEq] at hc
        subst hc
        rw [BMap.get?_insert] at hr
        split at hr
        · simp only [Option.some.injEq] at hr
          subst hr
          subst hvm
          exact hq
        · cases hcc : (a.loc x).cached with
          | none => simp [hcc] at hr
          | some c =>
            simp only [hcc, Option.getD_some] at hr
            exact h3 c hcc r vm hr
    · rw [Accum.loc_setLoc_other _ hx]
      exact h x

/-- What the echo round holds of the messages of its main round. -/
def Carried (Q : SignedPart .direct → SignedPart .echo → SignedPart .normal → Prop) (s : Session P) : Prop :=
  ∀ e, s.round = .echo e → ∀ x v, e.payloads.get? x = some v → ∃ w d b n, v = some w ∧ Q d b n ∧
    Authentic x s.sessionId (P.transition e.main).id d b n ∧ P.receive e.main x ⟨b.part, n.part, d.part⟩ = .ok w ∧
    (x ≠ s.me → e.echoBroadcasts.get? x = Loc.storePart none b)

theorem Carried.mono {s : Session P} (h : Carried Q s) (hq : ∀ d e n, Q d e n → Q' d e n) : Carried Q' s := by
  intro e he x v hv
  obtain ⟨w, d, b, n, h1, h2, h3⟩ := h e he x v hv
  exact ⟨w, d, b, n, h1, hq _ _ _ h2, h3⟩

theorem Carried.next {s s' : Session P} {a : Accum P} {rng : sp.Rng} {cached : List (VerifiedMessage sp)} (hp : Proper s)
    (hi : ∀ x, QInv Q s x (a.loc x)) (hf : s.finalizeRound rng a = .ok (.anotherRound s' cached)) :
    Carried Q s' ∧ ∀ vm ∈ cached, Q vm.direct vm.echo vm.normal := by
  obtain ⟨t, hu, hfin⟩ := finalizeRound_ok hf
  have hcc : ∀ rid, ∀ vm ∈ Accum.filterMessages a.cached rid, Q vm.direct vm.echo vm.normal := by
    intro rid vm hvm
    obtain ⟨x, m, hx, hm⟩ := mem_filterMessages.1 hvm
    exact (hi x).cached m hx rid vm hm
  cases hfin with
  | @toNext r _ hei hr hc hns hrid =>
    refine ⟨?_, fun vm hvm => hcc _ vm (List.mem_filter.1 hvm).1⟩
    intro e he
    rw [hns.round] at he
    simp at he
  | @toEcho info r _ ebs hei hr hget hns =>
    refine ⟨?_, hcc _⟩
    intro e he x v hv
    have hee : e = ⟨s.me, ebs, info, r, a.payloads, a.artifacts⟩ := by
      rw [hns.round] at he
      simpa using he.symm
    have hme : s'.me = s.me := by rw [hns.me, hp.me]
    have hebs : ebs = a.echos.insert s.me s.echo := by
      rw [hu.echos, BMap.get?_insert] at hget
      simpa using hget.symm
    obtain ⟨htr, -⟩ := roundId_main hp hr
    rw [hee] at hv
    obtain ⟨vm, -, h1, h2, h3, h4, -, -⟩ := (hi x).present v hv
    rw [hr] at h3
    obtain ⟨w, hw, h3⟩ := main_receive h3
    refine ⟨w, vm.direct, vm.echo, vm.normal, hw, h1, ?_, ?_, ?_⟩
    · rw [hns.sessionId, hee]
      simp only
      rw [← htr]
      exact h2
    · rw [hee]
      exact h3
    · intro hx
      rw [hee]
      simp only
      rw [hebs, BMap.get?_insert, if_neg (by rw [← hme]; exact hx)]
      exact h4

/-! ## The network -/

theorem Unforged.mono {H : sp.Id → Prop} {sid : Bytes} {w w' : List (Packet sp)} (hw : ∀ q ∈ w, q ∈ w')
    {d : SignedPart .direct} {e : SignedPart .echo} {n : SignedPart .normal} (h : Unforged H sid w d e n) :
    Unforged H sid w' d e n := by
  constructor
  · intro x hx hv hs
    obtain ⟨q, hq, h⟩ := h.direct x hx hv hs
    exact ⟨q, hw q hq, h⟩
  · intro x hx hv hs
    obtain ⟨q, hq, h⟩ := h.echo x hx hv hs
    exact ⟨q, hw q hq, h⟩
  · intro x hx hv hs
    obtain ⟨q, hq, h⟩ := h.normal x hx hv hs
    exact ⟨q, hw q hq, h⟩

/-- The evidence was recorded in one of the rounds `L` because of an authentic message of `x`. -/
def RecordedIn (Q : SignedPart .direct → SignedPart .echo → SignedPart .normal → Prop) (L : List (Session P)) (x : sp.Id)
    (ev : Evidence sp) : Prop :=
  ∃ s ∈ L, ∃ vm : VerifiedMessage sp, vm.sender = x ∧ Q vm.direct vm.echo vm.normal ∧
    Authentic x s.sessionId s.roundId vm.direct vm.echo vm.normal ∧ Recorded s.transcript (s.process vm) ev

theorem RecordedIn.mono {L L' : List (Session P)} {x : sp.Id} {ev : Evidence sp} (h : RecordedIn Q L x ev)
    (hq : ∀ d e n, Q d e n → Q' d e n) (hL : ∀ s ∈ L, s ∈ L') : RecordedIn Q' L' x ev := by
  obtain ⟨s, h1, vm, h2, h3, h4⟩ := h
  exact ⟨s, hL s h1, vm, h2, hq _ _ _ h3, h4⟩

theorem Updated.recordedIn {s : Session P} {a : Accum P} {t : Transcript sp} {L : List (Session P)}
    (hu : Updated s.transcript s.roundId s.me s.echo a t) (hq : ∀ x, QInv Q s x (a.loc x)) (hs : s ∈ L)
    (ht : ∀ x ev, s.transcript.provable.get? x = some ev → RecordedIn Q L x ev) {x : sp.Id} {ev : Evidence sp}
    (hx : t.provable.get? x = some ev) : RecordedIn Q L x ev := by
  rw [hu.provable x] at hx
  rcases Option.or_eq_some_iff.1 hx with h | ⟨-, h⟩
  · obtain ⟨vm, h1, h2, h3, h4⟩ := (hq x).proved ev h
    exact ⟨s, hs, vm, h1, h2, h3, h4⟩
  · exact ht x ev h

/-- What the report of a party holds. -/
theorem step_report {s : Session P} {a : Accum P} {ev : Event sp} {rep : Report P} {out : List (Message sp)}
    (h : step (.running s a) ev = some (.done (.ok rep), out)) :
    ∃ t, Updated s.transcript s.roundId s.me s.echo a t ∧ rep.provable = t.provable := by
  have term : ∀ {o : Bool}, s.terminateInner a o = .ok rep →
      ∃ t, Updated s.transcript s.roundId s.me s.echo a t ∧ rep.provable = t.provable := by
    intro o ht
    unfold Session.terminateInner at ht
    cases hu : s.updatedTranscript a with
    | error e => simp [hu] at ht
    | ok t =>
      simp only [hu, Except.ok.injEq] at ht
      exact ⟨t, update_iff.1 hu, by rw [← ht]; rfl⟩
  unfold step at h
  cases hc : a.canFinalize with
  | yes =>
    cases ev with
    | tick rng =>
      simp only [hc, Option.some.injEq] at h
      unfold finishRound at h
      cases hf : s.finalizeRound (sp.fork rng 0) a with
      | error e => simp [hf] at h
      | ok o =>
        cases o with
        | finished r =>
          simp only [hf, Prod.mk.injEq, RunState.done.injEq, Except.ok.injEq] at h
          obtain ⟨rfl, -⟩ := h
          obtain ⟨t, hu, hfin⟩ := finalizeRound_ok hf
          cases hfin with
          | result _ _ => exact ⟨t, hu, rfl⟩
        | anotherRound s' cached' =>
          simp only [hf] at h
          rcases enter_cases h with ⟨e, he, -⟩ | ⟨a', he, -⟩ <;> simp at he
    | deliver _ _ => simp [hc] at h
    | cancel => simp [hc] at h
    | close => simp [hc] at h
  | never =>
    cases ev with
    | tick rng =>
      simp only [hc, Option.some.injEq, Prod.mk.injEq, RunState.done.injEq] at h
      exact term h.1
    | deliver _ _ => simp [hc] at h
    | cancel => simp [hc] at h
    | close => simp [hc] at h
  | notYet =>
    cases ev with
    | tick rng => simp [hc] at h
    | deliver x m =>
      simp only [hc] at h
      cases hd : deliver s a x m <;> simp [hd] at h
    | cancel =>
      simp only [hc, Option.some.injEq, Prod.mk.injEq, RunState.done.injEq] at h
      exact term h.1
    | close => simp [hc] at h

/-- What is known of a party in a round; `L` are the rounds it has been in. -/
def NodeInv (g : Group P) (H : sp.Id → Prop) (wire : List (Packet sp)) (i : sp.Id) (L : List (Session P)) (s : Session P)
    (a : Accum P) : Prop :=
  H i ∧ ∃ rng s₀ tr, Session.new rng g.sid (g.signer i) (g.ep i) = .ok s₀ ∧ InRound s₀ tr s a ∧ Reach s₀ (.running s a) ∧
    L = tr.map Prod.fst ++ [s] ∧ (∀ x, QInv (Unforged H g.sid wire) s x (a.loc x)) ∧ Carried (Unforged H g.sid wire) s ∧
    ∀ x ev, s.transcript.provable.get? x = some ev → RecordedIn (Unforged H g.sid wire) L x ev

/-- The rounds are those of a run of party `i`. -/
def HistInv (g : Group P) (i : sp.Id) (L : List (Session P)) : Prop :=
  L ≠ [] → ∃ rng s₀ tr s c, Session.new rng g.sid (g.signer i) (g.ep i) = .ok s₀ ∧ Visits s₀ tr s c ∧
    L = tr.map Prod.fst ++ [s]

/-- The invariant; `V` are the rounds each party has been in. -/
structure OpenInv (g : Group P) (H : sp.Id → Prop) (V : sp.Id → List (Session P)) (n : Net P) : Prop where
  idle : ∀ i, n.node i = none → V i = []
  hist : ∀ i, HistInv g i (V i)
  sent : ∀ q ∈ n.wire, q.dest = q.message.destination ∧ ∃ s ∈ V q.src, MadeIn s q.message
  node : ∀ i s a, n.node i = some (.running s a) → NodeInv g H n.wire i (V i) s a
  carried : ∀ i, ∀ s ∈ V i, Carried (Unforged H g.sid n.wire) s
  report : ∀ i r, n.node i = some (.done (.ok r)) → ∀ x ev, r.provable.get? x = some ev →
    RecordedIn (Unforged H g.sid n.wire) (V i) x ev

theorem NodeInv.mono {g : Group P} {H : sp.Id → Prop} {w w' : List (Packet sp)} {i : sp.Id} {L : List (Session P)}
    {s : Session P} {a : Accum P} (hw : ∀ q ∈ w, q ∈ w') (h : NodeInv g H w i L s a) : NodeInv g H w' i L s a := by
  obtain ⟨h1, rng, s₀, tr, h2, h3, h4, h5, h6, h7, h8⟩ := h
  exact ⟨h1, rng, s₀, tr, h2, h3, h4, h5, fun x => (h6 x).mono fun _ _ _ h => h.mono hw,
    h7.mono fun _ _ _ h => h.mono hw, fun x ev he => (h8 x ev he).mono (fun _ _ _ h => h.mono hw) fun _ h => h⟩

theorem OpenInv.put {g : Group P} {H : sp.Id → Prop} {V : sp.Id → List (Session P)} {n : Net P} (h : OpenInv g H V n)
    {i : sp.Id} {st : RunState P} {out : List (Message sp)} {L : List (Session P)} (hL : ∀ s ∈ V i, s ∈ L)
    (hh : HistInv g i L) (hout : ∀ m ∈ out, ∃ s ∈ L, MadeIn s m)
    (hn : ∀ s a, st = .running s a → NodeInv g H n.wire i L s a)
    (hc : ∀ s ∈ L, Carried (Unforged H g.sid n.wire) s)
    (hr : ∀ r, st = .done (.ok r) → ∀ x ev, r.provable.get? x = some ev → RecordedIn (Unforged H g.sid n.wire) L x ev) :
    (∀ j, ∀ s ∈ V j, s ∈ Function.update V i L j) ∧ OpenInv g H (Function.update V i L) (n.put i st out) := by
  have hw : ∀ q ∈ n.wire, q ∈ (n.put i st out).wire := fun q hq => List.mem_append_left _ hq
  have hV : ∀ j, ∀ s ∈ V j, s ∈ Function.update V i L j := by
    intro j s hs
    by_cases hj : j = i
    · subst hj
      rw [Function.update_self]
      exact hL s hs
    · rw [Function.update_of_ne hj]
      exact hs
  refine ⟨hV, ?_, ?_, ?_, ?_, ?_, ?_⟩
  · intro j hj
    by_cases hji : j = i
    · subst hji
      simp [Net.put] at hj
    · simp only [Net.put, Function.update_of_ne hji] at hj ⊢
      exact h.idle j hj
  · intro j
    by_cases hji : j = i
    · subst hji
      rw [Function.update_self]
      exact hh
    · rw [Function.update_of_ne hji]
      exact h.hist j
  · intro q hq
    rcases List.mem_append.1 hq with hq | hq
    · obtain ⟨h1, s, hs, h2⟩ := h.sent q hq
      exact ⟨h1, s, hV _ s hs, h2⟩
    · obtain ⟨m, hm, rfl⟩ := List.mem_map.1 hq
      refine ⟨rfl, ?_⟩
      simp only [Function.update_self]
      exact hout m hm
  · intro j s a hj
    by_cases hji : j = i
    · subst hji
      simp only [Net.put, Function.update_self, Option.some.injEq] at hj
      rw [Function.update_self]
      exact (hn s a hj).mono hw
    · simp only [Net.put, Function.update_of_ne hji] at hj
      rw [Function.update_of_ne hji]
      exact (h.node j s a hj).mono hw
  · intro j s hs
    by_cases hji : j = i
    · subst hji
      rw [Function.update_self] at hs
      exact (hc s hs).mono fun _ _ _ h => h.mono hw
    · rw [Function.update_of_ne hji] at hs
      exact (h.carried j s hs).mono fun _ _ _ h => h.mono hw
  · intro j r hj x ev he
    by_cases hji : j = i
    · subst hji
      simp only [Net.put, Function.update_self, Option.some.injEq] at hj
      rw [Function.update_self]
      exact (hr r hj x ev he).mono (fun _ _ _ h => h.mono hw) fun _ h => h
    · simp only [Net.put, Function.update_of_ne hji] at hj
      rw [Function.update_of_ne hji]
      exact (h.report j r hj x ev he).mono (fun _ _ _ h => h.mono hw) fun _ h => h

theorem startRound_made {s : Session P} {rng : sp.Rng} {cached : List (VerifiedMessage sp)} {a : Accum P}
    {out : List (Message sp)} (h : startRound s rng cached = .ok (a, out)) : ∀ m ∈ out, MadeIn s m := by
  unfold startRound at h
  cases hs : sendAll s rng 0 s.makeAccum s.destinations.elems with
  | error e => simp [hs] at h
  | ok r =>
    obtain ⟨a0, o⟩ := r
    simp only [hs] at h
    split at h
    · simp at h
    · simp only [Except.ok.injEq, Prod.mk.injEq] at h
      obtain ⟨-, rfl⟩ := h
      obtain ⟨ws, h1, h2, -, rfl⟩ := Byz.sendAll_inv hs
      intro m hm
      obtain ⟨w, hw, rfl⟩ := List.mem_map.1 hm
      have hmd := h2 w hw
      obtain ⟨r1, hd⟩ := hmd.direct
      obtain ⟨r2, hsg⟩ := hmd.signed
      refine ⟨?_, hmd.echo, hmd.normal, (signed_part hsg).2, r1, _, hd⟩
      have : w.1.destination ∈ s.destinations.elems := by
        rw [← h1]
        exact List.mem_map.2 ⟨w, hw, rfl⟩
      exact BSet.mem_elems.1 this

theorem OpenInv.init (g : Group P) (H : sp.Id → Prop) : OpenInv g H (fun _ => []) (Net.init : Net P) := by
  refine ⟨fun _ _ => rfl, fun _ h => absurd rfl h, ?_, ?_, by simp, ?_⟩
  · intro q hq
    simp [Net.init] at hq
  · intro i s a h
    simp [Net.init] at h
  · intro i r h
    simp [Net.init] at h

theorem Carried.main {s : Session P} (h : ∃ r, s.round = .main r) : Carried Q s := by
  intro e he
  obtain ⟨r, hr⟩ := h
  rw [hr] at he
  simp at he

theorem OpenInv.step {g : Group P} {H : sp.Id → Prop} {V : sp.Id → List (Session P)} {n n' : Net P} (h : OpenInv g H V n)
    (hs : OpenStep g H n n') : ∃ V', (∀ j, ∀ s ∈ V j, s ∈ V' j) ∧ OpenInv g H V' n' := by
  have first : ∀ {s₀ : Session P}, (∃ r, s₀.round = .main r) → ∀ s ∈ [s₀], Carried (Unforged H g.sid n.wire) s := by
    intro s₀ hm s hs
    simp only [List.mem_singleton] at hs
    subst hs
    exact .main hm
  have more : ∀ {i : sp.Id} {s' : Session P}, Carried (Unforged H g.sid n.wire) s' →
      ∀ s ∈ V i ++ [s'], Carried (Unforged H g.sid n.wire) s := by
    intro i s' hc s hs
    rcases List.mem_append.1 hs with hs | hs
    · exact h.carried i s hs
    · simp only [List.mem_singleton] at hs
      subst hs
      exact hc
  cases hs with
  | @start i rng rng' hi hnone =>
    have hV : V i = [] := h.idle i hnone
    unfold Group.startNode
    cases hnew : Session.new rng g.sid (g.signer i) (g.ep i) with
    | error e =>
      simp only
      exact ⟨_, h.put (L := []) (by simp [hV]) (fun h => absurd rfl h) (by simp) (by simp) (by simp) (by simp)⟩
    | ok s₀ =>
      simp only
      have hh : HistInv g i [s₀] := fun _ => ⟨rng, s₀, [], s₀, [], hnew, .first, rfl⟩
      have hre := Reach.start (s₀ := s₀) rng'
      obtain ⟨hpr, -, -, ht0, hmain⟩ := new_proper hnew
      unfold Manul.start at hre ⊢
      generalize he : enterRound s₀ rng' [] = r at hre ⊢
      obtain ⟨st, out⟩ := r
      rcases enter_cases he with ⟨e, rfl, rfl⟩ | ⟨a, rfl, hst⟩
      · exact ⟨_, h.put (L := [s₀]) (by simp [hV]) hh (by simp) (by simp) (first hmain) (by simp)⟩
      · refine ⟨_, h.put (L := [s₀]) (by simp [hV]) hh ?_ ?_ (first hmain) (by simp)⟩
        · intro m hm
          exact ⟨s₀, by simp, startRound_made hst m hm⟩
        · intro s a' heq
          simp only [RunState.running.injEq] at heq
          obtain ⟨rfl, rfl⟩ := heq
          refine ⟨hi, rng, _, [], hnew, ⟨[], rng', [], .first, startRound_seq hst⟩, hre, rfl, ?_, .main hmain, ?_⟩
          · exact QInv.start (startRound_seq hst) (by simp) (by simp)
          · intro x ev hx
            simp [ht0, Transcript.new] at hx
  | @act i st st' ev out hnode hun hstep =>
    cases st with
    | done r => simp [Manul.step] at hstep
    | running s a =>
      obtain ⟨hi, rng, s₀, tr, hnew, hin, hre, hVi, hq, hca, htr⟩ := h.node i s a hnode
      obtain ⟨hpr, -, -, -, hmain⟩ := new_proper hnew
      have hsV : s ∈ V i := by rw [hVi]; simp
      rcases step_full hstep with ⟨rfl, r, rfl⟩ | ⟨rfl, x, m, a', rfl, hd, rfl⟩ | ⟨rng1, rng2, s', cached', hy, hf, he⟩
      · refine ⟨_, h.put (L := V i) (fun _ h => h) (h.hist i) (by simp) (by simp) (h.carried i) ?_⟩
        intro rep hrep x ev' hx
        simp only [RunState.done.injEq] at hrep
        subst hrep
        obtain ⟨t, hu, ht⟩ := step_report hstep
        rw [ht] at hx
        exact hu.recordedIn hq hsV htr hx
      · refine ⟨_, h.put (L := V i) (fun _ h => h) (h.hist i) (by simp) ?_ (h.carried i) (by simp)⟩
        intro s1 a1 heq
        simp only [RunState.running.injEq] at heq
        obtain ⟨rfl, rfl⟩ := heq
        obtain ⟨cached, rng0, l, hv, hseq⟩ := hin
        exact ⟨hi, rng, s₀, tr, hnew, ⟨cached, rng0, _, hv, seqRound_snoc hseq hd⟩, hre.step hstep, hVi,
          QInv.deliver hq (hun x m rfl) hd, hca, htr⟩
      · obtain ⟨cached, rng0, l, hv, hseq⟩ := hin
        have hv' := Visits.next hv hseq hy hf
        have hvi := visits_inv hpr hmain hv
        have hvi' := visits_inv hpr hmain hv'
        obtain ⟨hca', hcq⟩ := Carried.next hvi.proper hq hf
        have hh : HistInv g i (V i ++ [s']) := fun _ => ⟨rng, s₀, _, s', _, hnew, hv', by rw [hVi]; simp⟩
        rcases enter_cases he with ⟨e, rfl, rfl⟩ | ⟨a', rfl, hst⟩
        · exact ⟨_, h.put (L := V i ++ [s']) (fun _ h => List.mem_append_left _ h) hh (by simp) (by simp) (more hca') (by simp)⟩
        · refine ⟨_, h.put (L := V i ++ [s']) (fun _ h => List.mem_append_left _ h) hh ?_ ?_ (more hca') (by simp)⟩
          · intro m hm
            exact ⟨s', by simp, startRound_made hst m hm⟩
          · intro s1 a1 heq
            simp only [RunState.running.injEq] at heq
            obtain ⟨rfl, rfl⟩ := heq
            refine ⟨hi, rng, s₀, _, hnew, ⟨_, _, [], hv', startRound_seq hst⟩, hre.step hstep, by rw [hVi]; simp, ?_, hca', ?_⟩
            · exact QInv.start (startRound_seq hst) (by rw [hvi'.sessionId]; exact hvi'.authentic) hcq
            · intro x ev' hx
              exact ((finalized_transcript hf).recordedIn hq hsV htr hx).mono (fun _ _ _ h => h)
                (fun _ h => List.mem_append_left _ h)
  | @startFails i s₀ e out rng rng' hi hnone hnew hst hout =>
    have hV : V i = [] := h.idle i hnone
    have hh : HistInv g i [s₀] := fun _ => ⟨rng, s₀, [], s₀, [], hnew, .first, rfl⟩
    obtain ⟨-, -, -, -, hmain⟩ := new_proper hnew
    exact ⟨_, h.put (L := [s₀]) (by simp [hV]) hh (fun m hm => ⟨s₀, by simp, hout m hm⟩) (by simp) (first hmain) (by simp)⟩
  | @enterFails i s s' a cached' e out rng1 rng2 hnode hy hf hst hout =>
    obtain ⟨hi, rng, s₀, tr, hnew, hin, hre, hVi, hq, hca, htr⟩ := h.node i s a hnode
    obtain ⟨hpr, -, -, -, hmain⟩ := new_proper hnew
    obtain ⟨cached, rng0, l, hv, hseq⟩ := hin
    have hv' := Visits.next hv hseq hy hf
    have hh : HistInv g i (V i ++ [s']) := fun _ => ⟨rng, s₀, _, s', _, hnew, hv', by rw [hVi]; simp⟩
    obtain ⟨hca', -⟩ := Carried.next (visits_inv hpr hmain hv).proper hq hf
    exact ⟨_, h.put (L := V i ++ [s']) (fun _ h => List.mem_append_left _ h) hh (fun m hm => ⟨s', by simp, hout m hm⟩)
      (by simp) (more hca') (by simp)⟩

theorem OpenInv.steps {g : Group P} {H : sp.Id → Prop} {V : sp.Id → List (Session P)} {n n' : Net P} (h : OpenInv g H V n)
    (hs : OpenSteps g H n n') : ∃ V', (∀ j, ∀ s ∈ V j, s ∈ V' j) ∧ OpenInv g H V' n' := by
  induction hs with
  | refl => exact ⟨V, fun _ _ h => h, h⟩
  | step _ hs ih =>
    obtain ⟨V', h1, h2⟩ := ih
    obtain ⟨V'', h3, h4⟩ := h2.step hs
    exact ⟨V'', fun j s hs => h3 j s (h1 j s hs), h4⟩

theorem OpenSteps.wire {g : Group P} {H : sp.Id → Prop} {n n' : Net P} (h : OpenSteps g H n n') : ∀ q ∈ n.wire, q ∈ n'.wire := by
  induction h with
  | refl => exact fun _ h => h
  | step _ hs ih =>
    intro q hq
    cases hs <;> exact List.mem_append_left _ (ih q hq)

/-- A packet of a party is one of a round it has been in. -/
theorem OpenInv.own {g : Group P} {H : sp.Id → Prop} {V : sp.Id → List (Session P)} {n : Net P} (h : OpenInv g H V n)
    {q : Packet sp} (hq : q ∈ n.wire) :
    ∃ s ∈ V q.src, MadeIn s q.message ∧ Proper s ∧ s.sessionId = g.sid ∧ s.signer = g.signer q.src ∧ VisitedBy g q.src s ∧
      q.message.echo.metadata = ⟨g.sid, s.transition.id⟩ ∧ q.message.normal.metadata = ⟨g.sid, s.transition.id⟩ ∧
      q.message.direct.metadata = ⟨g.sid, s.transition.id⟩ := by
  obtain ⟨-, s, hs, hm⟩ := h.sent q hq
  obtain ⟨rng, s₀, tr, s1, c, hnew, hv, hV⟩ := h.hist q.src (List.ne_nil_of_mem hs)
  obtain ⟨hp, hsid, hsg, -, hmain⟩ := new_proper hnew
  obtain ⟨h1, h2, h3⟩ := visits_proper hp hmain hv s (by rw [← hV]; exact hs)
  have hvis : VisitedBy g q.src s := by
    rw [hV] at hs
    rcases List.mem_append.1 hs with hs | hs
    · obtain ⟨tr', c', hv', -⟩ := visits_prefix hv s hs
      exact ⟨rng, s₀, tr', c', hnew, hv'⟩
    · simp only [List.mem_singleton] at hs
      subst hs
      exact ⟨rng, s₀, tr, c, hnew, hv⟩
  obtain ⟨r1, he⟩ := h1.echo
  obtain ⟨r2, hn⟩ := h1.normal
  refine ⟨s, hs, hm, h1, h2.trans hsid, h3.trans hsg, hvis, ?_, ?_, ?_⟩
  · rw [hm.echo, (signed_part he).2, h2, hsid]
  · rw [hm.normal, (signed_part hn).2, h2, hsid]
  · rw [hm.directMeta, h2, hsid]

theorem sentIn_of {g : Group P} {H : sp.Id → Prop} {V : sp.Id → List (Session P)} {n : Net P} (h : OpenInv g H V n)
    {x : sp.Id} (hx : H x) {rid : RoundId} {d : SignedPart .direct} {e : SignedPart .echo} {m : SignedPart .normal}
    (hu : Unforged H g.sid n.wire d e m) (ha : Authentic x g.sid rid d e m) :
    SentIn g n.wire x rid ⟨e.part, m.part, d.part⟩ := by
  obtain ⟨⟨ma, va⟩, ⟨mb, vb⟩, ⟨mc, vc⟩⟩ := ha
  obtain ⟨qd, hqd, hsd, hmd, hpd⟩ := hu.direct x hx va (by rw [ma])
  obtain ⟨qe, hqe, hse, hme, hpe⟩ := hu.echo x hx vb (by rw [mb])
  obtain ⟨qn, hqn, hsn, hmn, hpn⟩ := hu.normal x hx vc (by rw [mc])
  refine ⟨qe, hqe, qn, hqn, qd, hqd, ?_, ?_, ?_, by rw [hpe, hpn, hpd]⟩
  · obtain ⟨s, -, hm, -, -, -, hvis, h1, -, -⟩ := h.own hqe
    rw [hse] at hvis
    refine ⟨hse, (h.sent qe hqe).1, s, hvis, ?_, hm⟩
    rw [hme, mb] at h1
    simpa using h1.symm
  · obtain ⟨s, -, hm, -, -, -, hvis, -, h1, -⟩ := h.own hqn
    rw [hsn] at hvis
    refine ⟨hsn, (h.sent qn hqn).1, s, hvis, ?_, hm⟩
    rw [hmn, mc] at h1
    simpa using h1.symm
  · obtain ⟨s, -, hm, -, -, -, hvis, -, -, h1⟩ := h.own hqd
    rw [hsd] at hvis
    refine ⟨hsd, (h.sent qd hqd).1, s, hvis, ?_, hm⟩
    rw [hmd, ma] at h1
    simpa using h1.symm

/-- No round id occurs twice among the rounds of a party. -/
theorem OpenInv.unique {g : Group P} {H : sp.Id → Prop} {V : sp.Id → List (Session P)} {n : Net P} (h : OpenInv g H V n)
    (hmi : MainIds P) (hac : Acyclic P) {x : sp.Id} :
    ∀ s ∈ V x, ∀ s' ∈ V x, s.transition.id = s'.transition.id → s = s' := by
  intro s hs s' hs' hid
  obtain ⟨rng, s₀, tr, sl, c, hnew, hv, hV⟩ := h.hist x (List.ne_nil_of_mem hs)
  rw [hV] at hs hs'
  refine List.inj_on_of_nodup_map (f := fun s : Session P => s.transition.id) ?_ hs hs' hid
  have := C13_no_repetition hmi hac hnew hv
  simpa [trailIds, Function.comp_def] using this

theorem OpenInv.together {g : Group P} {H : sp.Id → Prop} {V : sp.Id → List (Session P)} {n : Net P} (h : OpenInv g H V n)
    (hmi : MainIds P) (hac : Acyclic P) {x : sp.Id} (hx : H x) {rid : RoundId} {d : SignedPart .direct} {e : SignedPart .echo}
    {m : SignedPart .normal} (hu : Unforged H g.sid n.wire d e m) (ha : Authentic x g.sid rid d e m) :
    ∃ s ∈ V x, VisitedBy g x s ∧ s.transition.id = rid ∧ e.part = s.echo.part ∧ m.part = s.normal.part ∧
      ∃ dest rng art, s.comm.destinations.contains dest = true ∧ s.round.makeDirect rng dest = .ok (d.part, art) := by
  obtain ⟨⟨ma, va⟩, ⟨mb, vb⟩, ⟨mc, vc⟩⟩ := ha
  obtain ⟨qd, hqd, hsd, hmd, hpd⟩ := hu.direct x hx va (by rw [ma])
  obtain ⟨qe, hqe, hse, hme, hpe⟩ := hu.echo x hx vb (by rw [mb])
  obtain ⟨qn, hqn, hsn, hmn, hpn⟩ := hu.normal x hx vc (by rw [mc])
  obtain ⟨s1, hs1, hm1, -, -, -, hvis, -, -, h1⟩ := h.own hqd
  obtain ⟨s2, hs2, hm2, -, -, -, -, h2, -, -⟩ := h.own hqe
  obtain ⟨s3, hs3, hm3, -, -, -, -, -, h3, -⟩ := h.own hqn
  rw [hmd, ma] at h1
  rw [hme, mb] at h2
  rw [hmn, mc] at h3
  simp only [Metadata.mk.injEq, true_and] at h1 h2 h3
  rw [hsd] at hs1 hvis
  rw [hse] at hs2
  rw [hsn] at hs3
  have huniq := h.unique hmi hac (x := x)
  have e2 := huniq s2 hs2 s1 hs1 (h2.symm.trans h1)
  have e3 := huniq s3 hs3 s1 hs1 (h3.symm.trans h1)
  subst e2
  subst e3
  obtain ⟨r, art, hd⟩ := hm1.direct
  refine ⟨s3, hs3, hvis, h1.symm, ?_, ?_, qd.message.destination, r, art, hm1.dest, ?_⟩
  · rw [← hpe, hm2.echo]
  · rw [← hpn, hm3.normal]
  · rw [← hpd]
    exact hd

theorem sentTogether_of {g : Group P} {H : sp.Id → Prop} {V : sp.Id → List (Session P)} {n : Net P} (h : OpenInv g H V n)
    (hmi : MainIds P) (hac : Acyclic P) {x : sp.Id} (hx : H x) {rid : RoundId} {d : SignedPart .direct} {e : SignedPart .echo}
    {m : SignedPart .normal} (hu : Unforged H g.sid n.wire d e m) (ha : Authentic x g.sid rid d e m) :
    SentTogether g x rid ⟨e.part, m.part, d.part⟩ := by
  obtain ⟨s, -, h1⟩ := h.together hmi hac hx hu ha
  exact ⟨s, h1⟩

/-- The session a party is in belongs to it. -/
theorem NodeInv.session {g : Group P} {H : sp.Id → Prop} {w : List (Packet sp)} {i : sp.Id} {L : List (Session P)}
    {s : Session P} {a : Accum P} (h : NodeInv g H w i L s a) :
    s ∈ L ∧ Proper s ∧ s.sessionId = g.sid ∧ s.me = sp.verifyingKey (g.signer i) := by
  obtain ⟨-, rng, s₀, tr, hnew, ⟨c, r, l, hv, -⟩, -, rfl, -, -, -⟩ := h
  obtain ⟨hp, hsid, hsg, -, hmain⟩ := new_proper hnew
  have hi := visits_inv hp hmain hv
  exact ⟨by simp, hi.proper, hi.sessionId.trans hsid, by rw [hi.proper.me, hi.signer, hsg]⟩

/-- What is stored as the normal broadcast of a party in an echo round is what it has sent in its echo round. -/
theorem OpenInv.genuine {g : Group P} {H : sp.Id → Prop} {V : sp.Id → List (Session P)} {n : Net P} (h : OpenInv g H V n)
    (hmi : MainIds P) {i : sp.Id} (hi : H i) {s s' : Session P} {e : EchoRd P} (hs : s ∈ V i) (he : s.round = .echo e)
    {l : Loc P} (hq : QInv (Unforged H g.sid n.wire) s' i l) (hsid : s'.sessionId = g.sid)
    (hid : s.transition.id = s'.transition.id) {m : SignedPart .normal} (hm : l.normal = some m) :
    m.part = s.normal.part := by
  cases hp : l.payload with
  | none =>
    rw [(hq.absent hp).2.1] at hm
    simp at hm
  | some v =>
    obtain ⟨vm, -, hu, ⟨-, -, ⟨mc, vc⟩⟩, -, -, hst, -⟩ := hq.present v hp
    rw [hst] at hm
    rcases storePart_some hm with hm | ⟨rfl, -⟩
    · simp at hm
    · obtain ⟨q, hqw, hsrc, hmeta, hpart⟩ := hu.normal i hi vc (by rw [mc]; exact hsid)
      obtain ⟨s1, hs1, hmade, hp1, -, -, -, -, h1, -⟩ := h.own hqw
      rw [hmeta, mc] at h1
      simp only [Metadata.mk.injEq] at h1
      rw [hsrc] at hs1
      obtain ⟨rng, s₀, tr, sl, c, hnew, hv, hV⟩ := h.hist i (List.ne_nil_of_mem hs)
      obtain ⟨hp0, -, -, -, hmain⟩ := new_proper hnew
      have hecho : s.transition.id.isEcho = true := by
        rw [hV] at hs
        obtain ⟨hp2, -, -⟩ := visits_proper hp0 hmain hv s hs
        have := hp2.transition
        rw [he] at this
        simp only [SRound.transition, EchoRd.transition] at this
        unfold TransitionInfo.echo at this
        cases hec : (P.transition e.main).id.echo with
        | error err => simp [hec, mapErr] at this
        | ok eid =>
          simp only [hec, mapErr, Except.ok.injEq] at this
          rw [← this]
          exact (echo_base hec).2.1
      have hr1 : ∃ e1, s1.round = .echo e1 := by
        cases hround : s1.round with
        | echo e1 => exact ⟨e1, rfl⟩
        | main r =>
          obtain ⟨htr, -⟩ := roundId_main hp1 hround
          have hz : s1.transition.id = s.transition.id := h1.2.symm.trans hid.symm
          rw [← hz, htr, hmi r] at hecho
          simp at hecho
      obtain ⟨e1, he1⟩ := hr1
      rw [hV] at hs hs1
      have heq := visits_echo_unique hp0 hmain hv s1 hs1 s hs e1 e he1 he (h1.2.symm.trans hid.symm)
      rw [← hpart, hmade.normal, heq]

end Manul
