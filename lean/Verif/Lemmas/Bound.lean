import Verif.Spec.Bound
import Verif.Lemmas.Run
import Mathlib.Data.List.Perm.Subperm

/-!
# What a session keeps of what it receives
-/

namespace Manul

variable {sp : SP} {P : Proto sp}

/-! ## Counting -/

theorem nodup_length_le {α : Type} {l q : List α} (h : l.Nodup) (hs : ∀ x ∈ l, x ∈ q) : l.length ≤ q.length :=
  (List.subperm_of_subset h hs).length_le

theorem BMap.size_le {K V : Type} [LinearOrder K] {m : BMap K V} {q : List K} (h : ∀ k, m.contains k = true → k ∈ q) :
    m.size ≤ q.length := by
  have := nodup_length_le (q := q) m.toList_nodupKeys (fun k hk => by
    obtain ⟨⟨k', v⟩, h1, rfl⟩ := List.mem_map.1 hk
    exact h _ (BMap.contains_iff.2 ⟨v, BMap.mem_toList.1 h1⟩))
  simpa [BMap.size] using this

theorem sum_le_mul {l : List Nat} {b : Nat} (h : ∀ x ∈ l, x ≤ b) : l.sum ≤ l.length * b := by
  induction l with
  | nil => simp
  | cons x l ih =>
    have h1 := h x (List.mem_cons_self ..)
    have h2 := ih (fun y hy => h y (List.mem_cons_of_mem _ hy))
    simp only [List.sum_cons, List.length_cons, Nat.add_mul, Nat.one_mul]
    omega

theorem BMap.total_le {K L V : Type} [LinearOrder K] [LinearOrder L] {m : BMap K (BMap L V)} {q : List K} {k : List L}
    (h1 : ∀ x, m.contains x = true → x ∈ q) (h2 : ∀ x e y, m.get? x = some e → e.contains y = true → y ∈ k) :
    m.total ≤ q.length * k.length := by
  unfold BMap.total
  have h3 := sum_le_mul (l := m.values.map BMap.size) (b := k.length) (fun n hn => by
    obtain ⟨e, he, rfl⟩ := List.mem_map.1 hn
    obtain ⟨x, hx⟩ := BMap.mem_values.1 he
    exact BMap.size_le fun y hy => h2 x e y hx hy)
  have h4 : (m.values.map BMap.size).length = m.size := by simp [BMap.values, BMap.size]
  rw [h4] at h3
  exact le_trans h3 (Nat.mul_le_mul_right _ (BMap.size_le h1))

theorem filter_length_le_sum {α : Type} (f : α → Nat) (l : List α) : (l.filter (fun x => decide (0 < f x))).length ≤ (l.map f).sum := by
  induction l with
  | nil => simp
  | cons x l ih =>
    simp only [List.filter_cons, List.map_cons, List.sum_cons]
    split <;> simp_all <;> omega

theorem BMap.le_total {K L V : Type} [LinearOrder K] [LinearOrder L] {m : BMap K (BMap L V)} {q : List K} (hq : q.Nodup)
    (h : ∀ x ∈ q, ∃ e, m.get? x = some e ∧ ∃ y, e.contains y = true) : q.length ≤ m.total := by
  have h1 := filter_length_le_sum (fun e : K × BMap L V => e.2.size) m.toList
  have h2 := nodup_length_le (q := (m.toList.filter (fun e => decide (0 < e.2.size))).map (·.1)) hq (fun x hx => by
    obtain ⟨e, he, y, hy⟩ := h x hx
    obtain ⟨v, hv⟩ := BMap.contains_iff.1 hy
    refine List.mem_map.2 ⟨(x, e), List.mem_filter.2 ⟨BMap.mem_toList.2 he, ?_⟩, rfl⟩
    exact decide_eq_true (List.length_pos_of_mem (BMap.mem_toList.2 hv)))
  rw [List.length_map] at h2
  have h3 : m.total = (m.toList.map (fun e => e.2.size)).sum := by
    unfold BMap.total BMap.values
    rw [List.map_map]
    rfl
  rw [h3]
  exact le_trans h2 h1

/-! ## Rounds -/

/-- An invariant of the steps of a round holds at its end. -/
theorem seqRound_inv_of_mem {s : Session P} {rng : sp.Rng} {cached : List (VerifiedMessage sp)}
    {l : List (sp.Id × Message sp)} {b : Accum P} {I : sp.Id → Loc P → Prop} (h : SeqRound s rng cached l b)
    (h0 : ∀ x, I x ((s.makeAccum).loc x))
    (hart : ∀ x p u u', I x u → Loc.art p u = .ok u' → I x u')
    (happ : ∀ vm u u', vm ∈ cached → I vm.sender u → Loc.add s.transcript (s.process vm) u = .ok u' → I vm.sender u')
    (hdel : ∀ x m u u', (x, m) ∈ l → I x u → Loc.deliver s x m u = .ok u' → I x u') (x : sp.Id) : I x (b.loc x) := by
  have hx := (seqRound_loc.1 h).2 x
  unfold SeqLoc at hx
  have key : ∀ (ops : List (SeqOp P)) (u v : Loc P),
      (∀ op ∈ ops, op.party = x ∧ (∀ vm, op = .add vm → vm ∈ cached) ∧ ∀ y m, op = .del y m → (y, m) ∈ l) →
      foldE (SeqOp.loc s) u ops = .ok v → I x u → I x v := by
    intro ops
    induction ops with
    | nil =>
      intro u v _ h hu
      simp only [foldE, Except.ok.injEq] at h
      exact h ▸ hu
    | cons op ops ih =>
      intro u v hops h hu
      simp only [foldE] at h
      cases ho : SeqOp.loc s u op with
      | error e => simp [ho] at h
      | ok u1 =>
        simp only [ho] at h
        refine ih u1 v (fun o ho => hops o (List.mem_cons_of_mem _ ho)) h ?_
        obtain ⟨hp, hc, hm⟩ := hops op (List.mem_cons_self ..)
        cases op with
        | out o =>
          simp only [SeqOp.loc, outLoc] at ho
          obtain ⟨d, r⟩ := o
          cases r with
          | error e => simp at ho
          | ok r => exact hart _ _ _ _ hu ho
        | add vm =>
          simp only [SeqOp.party] at hp
          subst hp
          exact happ vm _ _ (hc vm rfl) hu ho
        | del y m =>
          simp only [SeqOp.party] at hp
          subst hp
          exact hdel _ _ _ _ (hm _ _ rfl) hu ho
  refine key _ _ _ ?_ hx (h0 x)
  intro op hop
  rw [List.mem_filter] at hop
  refine ⟨by simpa using hop.2, ?_, ?_⟩
  · rintro vm rfl
    have := hop.1
    unfold seqOps at this
    simp only [List.mem_append, List.mem_map] at this
    rcases this with (⟨o, -, h⟩ | ⟨v, hv, h⟩) | ⟨y, -, h⟩
    · simp at h
    · simp only [SeqOp.add.injEq] at h
      exact h ▸ hv
    · simp at h
  · rintro y m rfl
    have := hop.1
    unfold seqOps at this
    simp only [List.mem_append, List.mem_map] at this
    rcases this with (⟨o, -, h⟩ | ⟨v, -, h⟩) | ⟨z, hz, h⟩
    · simp at h
    · simp at h
    · simp only [SeqOp.del.injEq] at h
      obtain ⟨rfl, rfl⟩ := h
      exact hz

/-- Nothing has been kept of the party. -/
structure Loc.Quiet (l : Loc P) : Prop where
  processing : l.processing = false
  payload : l.payload = none
  cached : l.cached = none
  echo : l.echo = none
  normal : l.normal = none
  direct : l.direct = none
  provable : l.provable = none
  unprovable : l.unprovable = none

theorem quiet_of_not_keeps {a : Accum P} {x : sp.Id} : (a.loc x).Quiet ↔ ¬ a.Keeps x := by
  unfold Accum.Keeps
  simp only [BMap.contains_iff, not_or, not_exists]
  constructor
  · rintro ⟨h1, h2, h3, h4, h5, h6, h7, h8⟩
    simp only [Accum.loc] at *
    refine ⟨?_, ?_, ?_, ?_, ?_, ?_, ?_, ?_⟩
    · intro v hv
      rw [BMap.contains_eq_false] at h1
      simp [h1] at hv
    all_goals (intro v hv; simp_all)
  · rintro ⟨h1, h2, h3, h4, h5, h6, h7, h8⟩
    have e : ∀ {V : Type} {m : BMap sp.Id V}, (∀ v, ¬ m.get? x = some v) → m.get? x = none := by
      intro V m h
      cases hm : m.get? x with
      | none => rfl
      | some v => exact absurd hm (h v)
    exact ⟨BMap.contains_eq_false.2 (e h1), e h2, e h3, e h4, e h5, e h6, e h7, e h8⟩

/-- The invariant of runs with messages from `Q` only. -/
structure KInv (Q : sp.Id → Prop) (s₀ s : Session P) (a : Accum P) : Prop where
  signer : s.signer = s₀.signer
  me : s.me = s₀.me
  accum : ∀ x, Q x ∨ (a.loc x).Quiet
  transcript : ∀ x, s.transcript.Keeps x → Q x ∨ x = s₀.me
  rounds : ∀ r, s.transcript.echos.contains r = true ∨ s.transcript.normals.contains r = true ∨
    s.transcript.directs.contains r = true → ∃ s' a', ReachBy Q s₀ (.running s' a') ∧ s'.roundId = r
  errors : ∀ x, s.transcript.isBanned x = true → Q x
  owner : ∀ x m, a.cached.get? x = some m → ∀ r vm, m.get? r = some vm → vm.sender = x

theorem KInv.updated_banned {Q : sp.Id → Prop} {s₀ s : Session P} {a : Accum P} (hi : KInv Q s₀ s a) {t : Transcript sp}
    (hup : Updated s.transcript s.roundId s.me s.echo a t) {x : sp.Id} (hx : t.isBanned x = true) : Q x := by
  rw [hup.banned] at hx
  rcases (Bool.or_eq_true _ _).mp hx with h | h
  · exact hi.errors x h
  · rcases hi.accum x with hQ | hQ
    · exact hQ
    · refine absurd ?_ (quiet_of_not_keeps.1 hQ)
      unfold Accum.isBanned at h
      rcases (Bool.or_eq_true _ _).mp h with h | h <;> simp [Accum.Keeps, h]

theorem seqRound_quiet {Q : sp.Id → Prop} {s : Session P} {rng : sp.Rng} {cached : List (VerifiedMessage sp)} {a : Accum P}
    (h : SeqRound s rng cached [] a) (hc : ∀ vm ∈ cached, Q vm.sender) (x : sp.Id) : Q x ∨ (a.loc x).Quiet := by
  refine seqRound_inv_of_mem (I := fun x u => Q x ∨ u.Quiet) h ?_ ?_ ?_ ?_ x
  · intro x
    right
    constructor <;> simp [Session.makeAccum, Accum.loc, Accum.new]
  · intro x p u u' hi hu
    obtain ⟨-, rfl⟩ := art_ok hu
    rcases hi with hi | ⟨h1, h2, h3, h4, h5, h6, h7, h8⟩
    · exact Or.inl hi
    · exact Or.inr ⟨h1, h2, h3, h4, h5, h6, h7, h8⟩
  · intro vm u u' hvm _ _
    exact Or.inl (hc vm hvm)
  · intro x m u u' hm
    simp at hm

theorem seqRound_owner {s : Session P} {rng : sp.Rng} {cached : List (VerifiedMessage sp)} {l : List (sp.Id × Message sp)}
    {a : Accum P} (h : SeqRound s rng cached l a) (x : sp.Id) :
    ∀ m, a.cached.get? x = some m → ∀ r vm, m.get? r = some vm → vm.sender = x := by
  refine seqRound_inv (I := fun x u => ∀ m, u.cached = some m → ∀ r vm, m.get? r = some vm → vm.sender = x) h ?_ ?_ ?_ ?_ x
  · intro x m hm
    simp [Session.makeAccum, Accum.loc, Accum.new] at hm
  · intro x p u u' hi hu
    obtain ⟨-, rfl⟩ := art_ok hu
    exact hi
  · intro vm u u' hvm hi hu
    obtain ⟨-, -, hadd⟩ := add_ok hu
    cases hadd <;> exact hi
  · intro x m u u' hi hu
    cases deliver_cases hu with
    | ignored _ => exact hi
    | refused _ _ => exact hi
    | processed _ _ _ _ _ _ hadd => cases hadd <;> exact hi
    | @kept vm _ _ _ hvm =>
      intro mm hmm r w hw
      simp only [Option.some.injEq] at hmm
      subst hmm
      rw [BMap.get?_insert] at hw
      split at hw
      · simp only [Option.some.injEq] at hw
        rw [← hw, hvm]
        rfl
      · cases hcu : u.cached with
        | none => simp [hcu] at hw
        | some m0 =>
          simp only [hcu, Option.getD_some] at hw
          exact hi m0 hcu r w hw

theorem updated_keeps {t t' : Transcript sp} {rid : RoundId} {me : sp.Id} {myEcho : SignedPart .echo} {a : Accum P}
    (h : Updated t rid me myEcho a t') {x : sp.Id} (hk : t'.Keeps x) : t.Keeps x ∨ a.Keeps x ∨ x = me := by
  have key : ∀ {V : Type} {m : BMap RoundId (BMap sp.Id V)} {e : BMap sp.Id V},
      (∃ r mm, (m.insert rid e).get? r = some mm ∧ mm.contains x = true) →
      (∃ r mm, m.get? r = some mm ∧ mm.contains x = true) ∨ e.contains x = true := by
    rintro V m e ⟨r, mm, h1, h2⟩
    rw [BMap.get?_insert] at h1
    split at h1
    · simp only [Option.some.injEq] at h1
      subst h1
      exact Or.inr h2
    · exact Or.inl ⟨r, mm, h1, h2⟩
  unfold Transcript.Keeps at hk ⊢
  unfold Accum.Keeps
  rcases hk with hk | hk | hk | hk | hk
  · rw [contains_isSome, h.provable] at hk
    cases ha : a.provable.get? x with
    | none =>
      rw [ha, Option.none_or, ← contains_isSome] at hk
      simp [hk]
    | some v => simp [BMap.contains_iff.2 ⟨v, ha⟩]
  · rw [contains_isSome, h.unprovable] at hk
    cases ha : a.unprovable.get? x with
    | none =>
      rw [ha, Option.none_or, ← contains_isSome] at hk
      simp [hk]
    | some v => simp [BMap.contains_iff.2 ⟨v, ha⟩]
  · rw [h.echos] at hk
    rcases key hk with hk | hk
    · exact Or.inl (Or.inr (Or.inr (Or.inl hk)))
    · rw [BMap.contains_insert] at hk
      simp only [Bool.or_eq_true, decide_eq_true_eq] at hk
      rcases hk with hk | hk
      · simp [hk]
      · simp [hk]
  · rw [h.normals] at hk
    rcases key hk with hk | hk
    · exact Or.inl (Or.inr (Or.inr (Or.inr (Or.inl hk))))
    · simp [hk]
  · rw [h.directs] at hk
    rcases key hk with hk | hk
    · exact Or.inl (Or.inr (Or.inr (Or.inr (Or.inr hk))))
    · simp [hk]

theorem updated_rounds {t t' : Transcript sp} {rid : RoundId} {me : sp.Id} {myEcho : SignedPart .echo} {a : Accum P}
    (h : Updated t rid me myEcho a t') {r : RoundId}
    (hk : t'.echos.contains r = true ∨ t'.normals.contains r = true ∨ t'.directs.contains r = true) :
    r = rid ∨ t.echos.contains r = true ∨ t.normals.contains r = true ∨ t.directs.contains r = true := by
  rw [h.echos, h.normals, h.directs, BMap.contains_insert, BMap.contains_insert, BMap.contains_insert] at hk
  simp only [Bool.or_eq_true, decide_eq_true_eq] at hk
  tauto

theorem ReachBy.reach {Q : sp.Id → Prop} {s₀ : Session P} {st : RunState P} (h : ReachBy Q s₀ st) : Reach s₀ st := by
  induction h with
  | start rng => exact .start rng
  | step _ _ hs ih => exact .step ih hs

theorem reachBy_kinv {Q : sp.Id → Prop} {s₀ : Session P} (hme : s₀.me = sp.verifyingKey s₀.signer)
    (ht : s₀.transcript = Transcript.new) {st : RunState P}
    (h : ReachBy Q s₀ st) : ∀ s a, st = .running s a → KInv Q s₀ s a := by
  induction h with
  | start rng =>
    intro s a he
    obtain ⟨rfl, hs⟩ := enter_running he
    refine ⟨rfl, rfl, seqRound_quiet hs (by simp), ?_, ?_, ?_, seqRound_owner hs⟩
    · intro x hx
      rw [ht] at hx
      simp [Transcript.Keeps, Transcript.new] at hx
    · intro r hr
      rw [ht] at hr
      simp [Transcript.new] at hr
    · intro x hx
      rw [ht] at hx
      simp [Transcript.isBanned, Transcript.new] at hx
  | @step st st' ev out hr hq hs ih =>
    intro s' a' he
    subst he
    cases st with
    | done r => simp [step] at hs
    | running s a =>
      have hi := ih s a rfl
      rcases step_running hs with ⟨rfl, hny, x, m, rfl, hd⟩ | ⟨rng, cached, rng', hy, hf, hseq⟩
      · rw [deliver_loc] at hd
        cases hl : Loc.deliver s' x m (a.loc x) with
        | error e => simp [hl, liftLoc] at hd
        | ok l' =>
          simp only [hl, liftLoc, Except.ok.injEq] at hd
          subst hd
          obtain ⟨trail, cached, rng, l, hv, hseq⟩ := reach_running hr.reach
          refine ⟨hi.signer, hi.me, ?_, hi.transcript, hi.rounds, hi.errors, ?_⟩
          · intro y
            rw [Accum.loc_setLoc]
            split
            · rename_i hy
              exact Or.inl (hy ▸ hq x m rfl)
            · exact hi.accum y
          · have hd : deliver s' a x m = .ok (a.setLoc x l') := by rw [deliver_loc, hl]; rfl
            exact seqRound_owner (seqRound_snoc hseq hd)
      · have hup := finalized_transcript hf
        have hq' : ∀ rid, ∀ vm ∈ Accum.filterMessages a.cached rid, Q vm.sender := by
          intro rid vm hvm
          obtain ⟨x, m, hx, hmv⟩ := mem_filterMessages.1 hvm
          rw [hi.owner x m hx _ _ hmv]
          rcases hi.accum x with h | h
          · exact h
          · have := h.cached
            simp [Accum.loc, hx] at this
        have hc : ∀ vm ∈ cached, Q vm.sender := by
          obtain ⟨t, -, hfin⟩ := finalizeRound_ok hf
          cases hfin with
          | toEcho => exact hq' _
          | toNext => intro vm hvm; exact hq' _ vm (List.mem_filter.1 hvm).1
        obtain ⟨hsg, hm⟩ : s'.signer = s.signer ∧ s'.me = sp.verifyingKey s.signer := by
          obtain ⟨t, -, hfin⟩ := finalizeRound_ok hf
          cases hfin with
          | toEcho _ _ _ hns => exact ⟨hns.signer, hns.me⟩
          | toNext _ _ _ hns _ => exact ⟨hns.signer, hns.me⟩
        refine ⟨hsg.trans hi.signer, ?_, seqRound_quiet hseq hc, ?_, ?_, ?_, seqRound_owner hseq⟩
        · rw [hm, hi.signer, hme]
        · intro x hx
          rcases updated_keeps hup hx with h | h | h
          · exact hi.transcript x h
          · rcases hi.accum x with hQ | hQ
            · exact Or.inl hQ
            · exact absurd h (quiet_of_not_keeps.1 hQ)
          · exact Or.inr (h.trans hi.me)
        · intro r hr'
          rcases updated_rounds hup hr' with rfl | h
          · exact ⟨s, a, hr, rfl⟩
          · exact hi.rounds r h
        · intro x hx
          exact hi.updated_banned hup hx

/-- A run that has returned a report has done so in a round. -/
theorem reachBy_done {Q : sp.Id → Prop} {s₀ : Session P} {r : Report P} (h : ReachBy Q s₀ (.done (.ok r))) :
    ∃ s a t, ReachBy Q s₀ (.running s a) ∧ Updated s.transcript s.roundId s.me s.echo a t ∧ r.provable = t.provable ∧
      r.unprovable = t.unprovable := by
  generalize hst : RunState.done (.ok r) = st at h
  cases h with
  | start rng =>
    obtain ⟨e, he⟩ := enter_done (hst.symm : (enterRound s₀ rng []).1 = _)
    simp at he
  | @step st _ ev out hr hq hs =>
    subst hst
    have term : ∀ {s : Session P} {a : Accum P}, s.terminateDueToErrors a = .ok r →
        ∃ t, Updated s.transcript s.roundId s.me s.echo a t ∧ r.provable = t.provable ∧ r.unprovable = t.unprovable := by
      intro s a ht
      unfold Session.terminateDueToErrors Session.terminateInner at ht
      cases hu : s.updatedTranscript a with
      | error e => simp [hu] at ht
      | ok t =>
        simp only [hu, Except.ok.injEq] at ht
        subst ht
        exact ⟨t, update_iff.1 hu, rfl, rfl⟩
    cases st with
    | done r => simp [step] at hs
    | running s a =>
      unfold step at hs
      cases hc : a.canFinalize with
      | yes =>
        cases ev with
        | tick rng =>
          simp only [hc, Option.some.injEq] at hs
          unfold finishRound at hs
          cases hf : s.finalizeRound (sp.fork rng 0) a with
          | error e => simp [hf] at hs
          | ok o =>
            cases o with
            | finished r' =>
              simp only [hf, Prod.mk.injEq, RunState.done.injEq, Except.ok.injEq] at hs
              obtain ⟨t, hup, hfin⟩ := finalizeRound_ok hf
              cases hfin with
              | result hi hres =>
                obtain ⟨rfl, -⟩ := hs
                exact ⟨s, a, t, hr, hup, rfl, rfl⟩
            | anotherRound s' cached' =>
              simp only [hf] at hs
              have he : (enterRound s' (sp.fork rng 1) cached').1 = .done (.ok r) := by rw [hs]
              obtain ⟨e, he⟩ := enter_done he
              simp at he
        | deliver _ _ => simp [hc] at hs
        | cancel => simp [hc] at hs
        | close => simp [hc] at hs
      | never =>
        cases ev with
        | tick rng =>
          simp only [hc, Option.some.injEq, Prod.mk.injEq, RunState.done.injEq] at hs
          obtain ⟨t, ht⟩ := term hs.1
          exact ⟨s, a, t, hr, ht⟩
        | deliver _ _ => simp [hc] at hs
        | cancel => simp [hc] at hs
        | close => simp [hc] at hs
      | notYet =>
        cases ev with
        | tick rng => simp [hc] at hs
        | deliver x m => cases hd : deliver s a x m <;> simp [hc, hd] at hs
        | cancel =>
          simp only [hc, Option.some.injEq, Prod.mk.injEq, RunState.done.injEq] at hs
          obtain ⟨t, ht⟩ := term hs.1
          exact ⟨s, a, t, hr, ht⟩
        | close => simp [hc] at hs

end Manul
