import Verif.Lemmas.Loose
import Verif.Lemmas.MixNet
import Verif.Spec.MixOpen

/-! # Parties using either driver in a network controlled by an adversary -/

namespace Manul

variable {sp : SP} {P : Proto sp}

/-! ## What `run_session` does as operations of `par_run_session` -/

theorem send_ops {s : Session P} {ts : List (VerifiedMessage sp)} {a a' : Accum P} {outs : List (OutTask P)}
    (h : foldE outApply a outs = .ok a') :
    ∃ ops, foldE (parOp s) ⟨a, ts, outs⟩ ops = .ok ⟨a', ts, []⟩ ∧ parDeliveries ops = [] := by
  induction outs generalizing a with
  | nil =>
    simp only [foldE, Except.ok.injEq] at h
    subst h
    exact ⟨[], rfl, rfl⟩
  | cons o outs ih =>
    simp only [foldE] at h
    cases ho : outApply a o with
    | error e => simp [ho] at h
    | ok b =>
      simp only [ho] at h
      obtain ⟨ops, h1, h2⟩ := ih h
      refine ⟨.send 0 :: ops, ?_, by simpa [parDeliveries] using h2⟩
      obtain ⟨d, r⟩ := o
      cases r with
      | error e => simp [outApply] at ho
      | ok r =>
        obtain ⟨m, art⟩ := r
        simp only [outApply] at ho
        simp only [foldE, parOp, List.getElem?_cons_zero, ho, List.eraseIdx_cons_zero]
        exact h1

theorem complete_ops {s : Session P} {a a' : Accum P} {cs : List (VerifiedMessage sp)}
    (h : foldE (applyVerified s) a cs = .ok a') :
    ∃ ops, foldE (parOp s) ⟨a, cs, []⟩ ops = .ok ⟨a', [], []⟩ ∧ parDeliveries ops = [] := by
  induction cs generalizing a with
  | nil =>
    simp only [foldE, Except.ok.injEq] at h
    subst h
    exact ⟨[], rfl, rfl⟩
  | cons vm cs ih =>
    simp only [foldE] at h
    cases ho : applyVerified s a vm with
    | error e => simp [ho] at h
    | ok b =>
      simp only [ho] at h
      obtain ⟨ops, h1, h2⟩ := ih h
      refine ⟨.complete 0 :: ops, ?_, by simpa [parDeliveries] using h2⟩
      unfold applyVerified at ho
      simp only [foldE, parOp, List.getElem?_cons_zero, ho, List.eraseIdx_cons_zero]
      exact h1

theorem startRound_ops {s : Session P} {rng : sp.Rng} {cached : List (VerifiedMessage sp)} {a : Accum P} {out : List (Message sp)}
    (h : startRound s rng cached = .ok (a, out)) : ∃ ops, ParRound s rng cached ops ⟨a, [], []⟩ ∧ parDeliveries ops = [] := by
  unfold startRound at h
  cases hs : sendAll s rng 0 s.makeAccum s.destinations.elems with
  | error e => simp [hs] at h
  | ok r =>
    obtain ⟨b, ms⟩ := r
    simp only [hs] at h
    cases hf : foldE (applyVerified s) b cached with
    | error e => simp [hf] at h
    | ok c =>
      simp only [hf, Except.ok.injEq, Prod.mk.injEq] at h
      obtain ⟨rfl, -⟩ := h
      obtain ⟨o1, h1, h2⟩ := send_ops (s := s) (ts := cached) (sendAll_iff.1 ⟨ms, hs⟩)
      obtain ⟨o2, h3, h4⟩ := complete_ops hf
      exact ⟨o1 ++ o2, (foldE_append _ _ _ _ _).2 ⟨_, h1, h3⟩, by rw [parDeliveries_append, h2, h4]; rfl⟩

theorem deliver_ops {s : Session P} {a a' : Accum P} {x : sp.Id} {m : Message sp} (h : deliver s a x m = .ok a') :
    ∃ ops, foldE (parOp s) ⟨a, [], []⟩ ops = .ok ⟨a', [], []⟩ ∧ parDeliveries ops = [(x, m)] := by
  unfold deliver at h
  cases hp : s.preprocess a x m with
  | error e => simp [hp] at h
  | ok r =>
    obtain ⟨b, o⟩ := r
    simp only [hp] at h
    cases ho : o.ok? with
    | none =>
      simp only [ho, Except.ok.injEq] at h
      subst h
      exact ⟨[.deliver x m], by simp [foldE, parOp, hp, ho], rfl⟩
    | some vm =>
      simp only [ho] at h
      obtain ⟨ops, h1, h2⟩ := complete_ops (s := s) (a := b) (cs := [vm]) (a' := a') (by simp [foldE, h])
      refine ⟨.deliver x m :: ops, ?_, by simp [parDeliveries, h2]⟩
      simp only [foldE, parOp, hp, ho, List.nil_append]
      exact h1

theorem joined (a : Accum P) : parJoin (⟨a, [], []⟩ : ParSt P) = .ok a := rfl

/-- How `run_session` ends. -/
theorem step_ends {s : Session P} {a : Accum P} {ev : Event sp} {rep : Report P} {out : List (Message sp)}
    (h : step (.running s a) ev = some (.done (.ok rep), out)) : EndsWith s a rep := by
  unfold step at h
  cases hc : a.canFinalize with
  | yes =>
    cases ev with
    | tick rng =>
      simp only [hc, Option.some.injEq] at h
      unfold finishRound at h
      split at h
      · simp at h
      · rename_i r hf
        simp only [Prod.mk.injEq, RunState.done.injEq, Except.ok.injEq] at h
        rw [h.1] at hf
        exact .inl ⟨hc, _, hf⟩
      · rename_i s' cached hf
        rcases enter_cases h with ⟨e, h1, -⟩ | ⟨b, h1, -⟩ <;> simp at h1
    | deliver x m => simp [hc] at h
    | cancel => simp [hc] at h
    | close => simp [hc] at h
  | never =>
    cases ev with
    | tick rng =>
      simp only [hc, Option.some.injEq, Prod.mk.injEq, RunState.done.injEq] at h
      exact .inr ⟨by rw [hc]; simp, h.1⟩
    | deliver x m => simp [hc] at h
    | cancel => simp [hc] at h
    | close => simp [hc] at h
  | notYet =>
    cases ev with
    | tick rng => simp [hc] at h
    | deliver x m =>
      simp only [hc] at h
      split at h <;> simp at h
    | cancel =>
      simp only [hc, Option.some.injEq, Prod.mk.injEq, RunState.done.injEq] at h
      exact .inr ⟨by rw [hc]; simp, h.1⟩
    | close => simp [hc] at h

/-! ## The steps -/

/-- The state is one the driver of the party can be in. -/
def MixOk (g : Group P) (par : sp.Id → Bool) (i : sp.Id) : MixState P → Prop
  | .seq st => par i = false ∧ ∀ s a, st = .running s a →
      ∃ rng s₀, Session.new rng g.sid (g.signer i) (g.ep i) = .ok s₀ ∧ Reach s₀ (.running s a)
  | .par st => par i = true ∧ ∀ s st', st = .running s st' →
      ∃ rng s₀, Session.new rng g.sid (g.signer i) (g.ep i) = .ok s₀ ∧ ParAny s₀ (.running s st')

/-- This holds for all parties. -/
def MixEverywhere (g : Group P) (par : sp.Id → Bool) (n : MixNet P) : Prop := ∀ i st, n.node i = some st → MixOk g par i st

theorem MixEverywhere.init (g : Group P) (par : sp.Id → Bool) : MixEverywhere g par (MixNet.init : MixNet P) := by
  intro i st h
  simp [MixNet.init] at h

theorem MixEverywhere.put {g : Group P} {par : sp.Id → Bool} {n : MixNet P} (h : MixEverywhere g par n) {i : sp.Id}
    {st : MixState P} (hs : MixOk g par i st) (out : List (Message sp)) : MixEverywhere g par (n.put i st out) := by
  intro j st' hj
  by_cases hji : j = i
  · subst hji
    simp only [MixNet.put, Function.update_self, Option.some.injEq] at hj
    rw [← hj]
    exact hs
  · simp only [MixNet.put, Function.update_of_ne hji] at hj
    exact h j st' hj

theorem MixOpenStep.everywhere {g : Group P} {H : sp.Id → Prop} {par : sp.Id → Bool} {n n' : MixNet P}
    (hp : MixEverywhere g par n) (h : MixOpenStep g H par n n') : MixEverywhere g par n' := by
  cases h with
  | @startSeq i rng rng' hi hpar hnone =>
    apply hp.put
    refine ⟨hpar, ?_⟩
    intro s a hs
    unfold Group.startNode at hs
    split at hs
    · simp at hs
    · rename_i s₀ hnew
      exact ⟨rng, s₀, hnew, hs ▸ .start rng'⟩
  | @actSeq i st st' ev out hn hun hstep =>
    apply hp.put
    refine ⟨(hp i _ hn).1, ?_⟩
    intro s a hs
    cases st with
    | done r => simp [Manul.step] at hstep
    | running s1 a1 =>
      obtain ⟨rng, s₀, hnew, hre⟩ := (hp i _ hn).2 s1 a1 rfl
      exact ⟨rng, s₀, hnew, hs ▸ hre.step hstep⟩
  | startFails rng rng' _ hpar _ _ _ _ =>
    apply hp.put
    exact ⟨hpar, by simp⟩
  | @enterFails i s s' a cached e out rng rng' hn _ _ _ _ =>
    apply hp.put
    exact ⟨(hp i _ hn).1, by simp⟩
  | @startPar i rng rng' hi hpar hnone =>
    apply hp.put
    refine ⟨hpar, ?_⟩
    intro s a hs
    unfold Group.startPar at hs
    split at hs
    · simp at hs
    · rename_i s₀ hnew
      exact ⟨rng, s₀, hnew, hs ▸ .start rng'⟩
  | @actPar i s st st' ev out hn hun hstep hout =>
    apply hp.put
    refine ⟨(hp i _ hn).1, ?_⟩
    intro s1 a1 hs
    obtain ⟨rng, s₀, hnew, hre⟩ := (hp i _ hn).2 s st rfl
    exact ⟨rng, s₀, hnew, hs ▸ hre.step hstep⟩

theorem MixOpenStep.loose {g : Group P} {H : sp.Id → Prop} {par : sp.Id → Bool} {n n' : MixNet P}
    (hp : MixEverywhere g par n) (h : MixOpenStep g H par n n') : LooseStep (MixVisitedBy g par) g H n.embed n'.embed := by
  cases h with
  | @startSeq i rng rng' hi hpar hnone =>
    have hnone' : n.embed.node i = none := by simp [MixNet.embed, hnone]
    rw [MixNet.embed_put]
    unfold Group.startNode
    cases hnew : Session.new rng g.sid (g.signer i) (g.ep i) with
    | error e => exact .noSession hnone'
    | ok s₀ =>
      simp only
      have hvis : MixVisitedBy g par i s₀ := .inl ⟨hpar, rng, s₀, [], [], hnew, .first⟩
      unfold Manul.start
      generalize he : enterRound s₀ rng' [] = r
      obtain ⟨st, out⟩ := r
      rcases enter_cases he with ⟨e, rfl, rfl⟩ | ⟨a, rfl, hst⟩
      · exact .beginFails hnone' hnew hvis (by simp)
      · obtain ⟨ops, h1, h2⟩ := startRound_ops hst
        exact .begin hi hnone' hnew hvis h1 h2 (startRound_made hst)
  | @actSeq i st st' ev out hn hun hstep =>
    cases st with
    | done r => simp [Manul.step] at hstep
    | running s a =>
      have hn' : n.embed.node i = some (.running s ⟨a, [], []⟩) := by simp [MixNet.embed, hn, MixState.embed]
      obtain ⟨hpar, hok⟩ := hp i _ hn
      obtain ⟨rng, s₀, hnew, hre⟩ := hok s a rfl
      obtain ⟨tr, cached, rng0, l, hv, hseq⟩ := reach_running hre
      rw [MixNet.embed_put]
      rcases step_full hstep with ⟨rfl, r, rfl⟩ | ⟨rfl, x, m, a', rfl, hd, rfl⟩ | ⟨rng1, rng2, s', cached', hy, hf, he⟩
      · exact .ends hn' (fun rep hr => ⟨a, joined a, step_ends (hr ▸ hstep)⟩) (by simp)
      · obtain ⟨ops, h1, h2⟩ := deliver_ops hd
        refine .ops hn' h1 ?_ (by simp)
        intro y m' hm
        rw [h2] at hm
        simp only [List.mem_singleton, Prod.mk.injEq] at hm
        obtain ⟨rfl, rfl⟩ := hm
        exact hun _ _ rfl
      · have hvis : MixVisitedBy g par i s' := .inl ⟨hpar, rng, s₀, _, _, hnew, .next hv hseq hy hf⟩
        rcases enter_cases he with ⟨e, rfl, rfl⟩ | ⟨a', rfl, hst⟩
        · exact .enterFails hn' (joined a) hy hf hvis (by simp)
        · obtain ⟨ops, h1, h2⟩ := startRound_ops hst
          exact .enter hn' (joined a) hy hf hvis h1 h2 fun m hm => .inr (startRound_made hst m hm)
  | @startFails i s₀ e out rng rng' hi hpar hnone hnew hst hout =>
    rw [MixNet.embed_put]
    exact .beginFails (by simp [MixNet.embed, hnone]) hnew (.inl ⟨hpar, rng, s₀, [], [], hnew, .first⟩) hout
  | @enterFails i s s' a cached e out rng1 rng2 hn hy hf hst hout =>
    have hn' : n.embed.node i = some (.running s ⟨a, [], []⟩) := by simp [MixNet.embed, hn, MixState.embed]
    obtain ⟨hpar, hok⟩ := hp i _ hn
    obtain ⟨rng, s₀, hnew, hre⟩ := hok s a rfl
    obtain ⟨tr, cached, rng0, l, hv, hseq⟩ := reach_running hre
    rw [MixNet.embed_put]
    exact .enterFails hn' (joined a) hy hf (.inl ⟨hpar, rng, s₀, _, _, hnew, .next hv hseq hy hf⟩) hout
  | @startPar i rng rng' hi hpar hnone =>
    have hnone' : n.embed.node i = none := by simp [MixNet.embed, hnone]
    rw [MixNet.embed_put]
    unfold Group.startPar
    cases hnew : Session.new rng g.sid (g.signer i) (g.ep i) with
    | error e => exact .noSession hnone'
    | ok s₀ => exact .begin hi hnone' hnew (.inr ⟨hpar, rng, s₀, _, hnew, .start rng'⟩) (ops := []) rfl rfl (by simp)
  | @actPar i s st st' ev out hn hun hstep hout =>
    have hn' : n.embed.node i = some (.running s st) := by simp [MixNet.embed, hn, MixState.embed]
    obtain ⟨hpar, hok⟩ := hp i _ hn
    obtain ⟨rng, s₀, hnew, hany⟩ := hok s st rfl
    rw [MixNet.embed_put]
    exact parStep_loose hn' hun hany hstep hout fun s' st1 hs => by
      have hs' : st' = .running s' st1 := hs
      exact .inr ⟨hpar, rng, s₀, _, hnew, hs' ▸ hany.step hstep⟩

theorem MixOpenSteps.loose {g : Group P} {H : sp.Id → Prop} {par : sp.Id → Bool} {n n' : MixNet P} (hp : MixEverywhere g par n)
    (h : MixOpenSteps g H par n n') : MixEverywhere g par n' ∧ LooseSteps (MixVisitedBy g par) g H n.embed n'.embed := by
  induction h with
  | refl => exact ⟨hp, .refl⟩
  | step _ hs ih => exact ⟨hs.everywhere ih.1, ih.2.step (hs.loose ih.1)⟩

theorem embed_init : (MixNet.init : MixNet P).embed = PNet.init := rfl

theorem MixOpenSteps.looseInit {g : Group P} {H : sp.Id → Prop} {par : sp.Id → Bool} {n : MixNet P}
    (h : MixOpenSteps g H par MixNet.init n) : LooseSteps (MixVisitedBy g par) g H PNet.init n.embed :=
  (h.loose (.init g par)).2

theorem MixOpenSteps.looseNext {g : Group P} {H : sp.Id → Prop} {par : sp.Id → Bool} {n n' : MixNet P}
    (h : MixOpenSteps g H par MixNet.init n) (h' : MixOpenSteps g H par n n') :
    LooseSteps (MixVisitedBy g par) g H n.embed n'.embed :=
  (h'.loose (h.loose (.init g par)).1).2

/-- A party in a round. -/
theorem inRound_embed {n : MixNet P} {i : sp.Id} {st : MixState P} {s : Session P} {a : Accum P} (hn : n.node i = some st)
    (hr : st.inRound = some (s, a)) : ∃ pst, n.embed.node i = some (.running s pst) ∧ pst.accum = a := by
  unfold MixState.inRound at hr
  split at hr
  · simp only [Option.some.injEq, Prod.mk.injEq] at hr
    obtain ⟨rfl, rfl⟩ := hr
    exact ⟨⟨_, [], []⟩, by simp [MixNet.embed, hn, MixState.embed], rfl⟩
  · simp only [Option.some.injEq, Prod.mk.injEq] at hr
    obtain ⟨rfl, rfl⟩ := hr
    exact ⟨_, by simp [MixNet.embed, hn, MixState.embed], rfl⟩
  · simp at hr

/-- A party that has ended. -/
theorem report_embed {n : MixNet P} {i : sp.Id} {st : MixState P} {r : Except LErr (Report P)} (hn : n.node i = some st)
    (hr : st.report = some r) : n.embed.node i = some (.done r) := by
  unfold MixState.report at hr
  split at hr
  · simp only [Option.some.injEq] at hr
    subst hr
    simp [MixNet.embed, hn, MixState.embed]
  · simp only [Option.some.injEq] at hr
    subst hr
    simp [MixNet.embed, hn, MixState.embed]
  · simp at hr

theorem hasEntered_embed {n : MixNet P} {x : sp.Id} {id : RoundId} (h : ParHasEntered n.embed x id) : MixHasEntered n x id := by
  have key : ∀ {st : ParState P}, n.embed.node x = some st → ∃ m, n.node x = some m ∧ m.embed = st := by
    intro st hs
    simp only [MixNet.embed, Option.map_eq_some_iff] at hs
    exact hs
  rcases h with ⟨s, st, h1, h2⟩ | ⟨r, h1⟩
  · obtain ⟨m, h3, h4⟩ := key h1
    refine ⟨m, h3, .inl ⟨s, st.accum, ?_, h2⟩⟩
    cases m with
    | seq m =>
      cases m with
      | running s1 a1 =>
        simp only [MixState.embed, ParState.running.injEq] at h4
        obtain ⟨rfl, rfl⟩ := h4
        rfl
      | done r => simp [MixState.embed] at h4
    | par m =>
      simp only [MixState.embed] at h4
      subst h4
      rfl
  · obtain ⟨m, h3, h4⟩ := key h1
    refine ⟨m, h3, .inr ⟨r, ?_⟩⟩
    cases m with
    | seq m =>
      cases m with
      | running s1 a1 => simp [MixState.embed] at h4
      | done r =>
        simp only [MixState.embed, ParState.done.injEq] at h4
        subst h4
        rfl
    | par m =>
      simp only [MixState.embed] at h4
      subst h4
      rfl

end Manul
