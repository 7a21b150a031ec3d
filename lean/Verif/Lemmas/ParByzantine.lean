import Verif.Spec.ParByzantine
import Verif.Lemmas.ByzantineInv
import Verif.Lemmas.ParNet
import Verif.Lemmas.ParSend
import Mathlib.Data.Multiset.Basic
import Mathlib.Algebra.Order.Group.Multiset

/-! # Parties using the parallel driver among parties that do not follow the protocol: preparations -/

namespace Manul

variable {sp : SP} {P : Proto sp}

/-! ### The artifacts -/

/-- The creation tasks complete the artifacts. -/
def Joins (A : BMap sp.Id (Option P.Artifact)) (os : List (OutTask P)) (B : BMap sp.Id (Option P.Artifact)) : Prop :=
  ∀ c : Accum P, c.artifacts = A → foldE outApply c os = .ok { c with artifacts := B }

theorem outApply_ok {c c' : Accum P} {o : OutTask P} (h : outApply c o = .ok c') :
    ∃ B, c' = { c with artifacts := B } ∧ ∀ d : Accum P, d.artifacts = c.artifacts → outApply d o = .ok { d with artifacts := B } := by
  unfold outApply at h ⊢
  obtain ⟨x, r⟩ := o
  cases r with
  | error e => simp at h
  | ok r =>
    obtain ⟨m, art⟩ := r
    simp only [Accum.addArtifact] at h ⊢
    split at h
    · simp at h
    · rename_i hc
      simp only [Except.ok.injEq] at h
      refine ⟨_, h.symm, ?_⟩
      intro d hd
      rw [hd, if_neg hc]

theorem Joins.of {c c' : Accum P} {os : List (OutTask P)} (h : foldE outApply c os = .ok c') :
    ∃ B, c' = { c with artifacts := B } ∧ Joins c.artifacts os B := by
  induction os generalizing c with
  | nil =>
    simp only [foldE, Except.ok.injEq] at h
    subst h
    exact ⟨_, rfl, fun d hd => by simp only [foldE]; rw [← hd]⟩
  | cons o os ih =>
    simp only [foldE] at h
    cases ho : outApply c o with
    | error e => simp [ho] at h
    | ok c1 =>
      simp only [ho] at h
      obtain ⟨B1, rfl, h1⟩ := outApply_ok ho
      obtain ⟨B, rfl, h2⟩ := ih h
      refine ⟨B, rfl, ?_⟩
      intro d hd
      simp only [foldE, h1 d hd]
      exact h2 _ rfl

theorem Joins.cons {A B : BMap sp.Id (Option P.Artifact)} {o : OutTask P} {os : List (OutTask P)} (h : Joins A (o :: os) B) :
    ∃ A', (∀ c : Accum P, c.artifacts = A → outApply c o = .ok { c with artifacts := A' }) ∧ Joins A' os B := by
  have h0 := h { Accum.new BMap.empty with artifacts := A } rfl
  simp only [foldE] at h0
  cases ho : outApply ({ Accum.new BMap.empty with artifacts := A } : Accum P) o with
  | error e => simp [ho] at h0
  | ok c1 =>
    simp only [ho] at h0
    obtain ⟨A', rfl, h1⟩ := outApply_ok ho
    obtain ⟨B', hB, h2⟩ := Joins.of h0
    refine ⟨A', h1, ?_⟩
    have : B = B' := congrArg Accum.artifacts hB
    rw [this]
    exact h2

theorem addArtifact_comm (a : Accum P) (c c' : ProcessedArtifact P) :
    andThen (a.addArtifact c) (fun b => b.addArtifact c') = andThen (a.addArtifact c') (fun b => b.addArtifact c) := by
  unfold Accum.addArtifact
  by_cases h : a.artifacts.contains c.destination = true
  · by_cases h' : a.artifacts.contains c'.destination = true
    · simp [h, h', andThen]
    · simp [h, h', andThen, BMap.contains_insert]
  · by_cases h' : a.artifacts.contains c'.destination = true
    · simp [h, h', andThen, BMap.contains_insert]
    · by_cases he : c.destination = c'.destination
      · rw [he] at h ⊢
        simp [h', andThen, BMap.contains_insert]
      · simp [h, h', andThen, BMap.contains_insert, he, Ne.symm he, BMap.insert_comm he]

/-- Two creation tasks can be exchanged. -/
theorem outApply_swap {c c1 c2 : Accum P} {o o' : OutTask P} (h1 : outApply c o = .ok c1) (h2 : outApply c1 o' = .ok c2) :
    ∃ c3, outApply c o' = .ok c3 ∧ outApply c3 o = .ok c2 := by
  obtain ⟨x, r⟩ := o
  obtain ⟨x', r'⟩ := o'
  cases r with
  | error e => simp [outApply] at h1
  | ok r =>
    cases r' with
    | error e => simp [outApply] at h2
    | ok r' =>
      simp only [outApply] at h1 h2 ⊢
      have := addArtifact_comm c r.2 r'.2
      simp only [h1, andThen, h2] at this
      cases h3 : c.addArtifact r'.2 with
      | error e => simp [h3] at this
      | ok c3 =>
        simp only [h3] at this
        exact ⟨c3, rfl, this.symm⟩

/-- Any creation task can be the first one. -/
theorem Joins.take {A B : BMap sp.Id (Option P.Artifact)} {os : List (OutTask P)} (h : Joins A os B) {i : Nat} {o : OutTask P}
    (ho : os[i]? = some o) :
    ∃ A', (∀ c : Accum P, c.artifacts = A → outApply c o = .ok { c with artifacts := A' }) ∧ Joins A' (os.eraseIdx i) B := by
  induction os generalizing i A with
  | nil => simp at ho
  | cons p os ih =>
    obtain ⟨A1, h1, h2⟩ := h.cons
    cases i with
    | zero =>
      simp only [List.getElem?_cons_zero, Option.some.injEq] at ho
      subst ho
      exact ⟨A1, h1, h2⟩
    | succ i =>
      simp only [List.getElem?_cons_succ] at ho
      obtain ⟨A2, h3, h4⟩ := ih h2 ho
      let c : Accum P := { Accum.new BMap.empty with artifacts := A }
      obtain ⟨c3, h5, h6⟩ := outApply_swap (h1 c rfl) (h3 _ rfl)
      obtain ⟨A3, rfl, h7⟩ := outApply_ok h5
      refine ⟨A3, h7, ?_⟩
      intro d hd
      simp only [List.eraseIdx_cons_succ, foldE]
      obtain ⟨A4, h8, h9⟩ := outApply_ok h6
      have : A4 = A2 := (congrArg Accum.artifacts h8).symm
      subst this
      rw [h9 d hd]
      exact h4 _ rfl

theorem Joins.join {st : ParSt P} {B : BMap sp.Id (Option P.Artifact)} (h : Joins st.accum.artifacts st.outgoing B) :
    parJoin st = .ok { st.accum with artifacts := B } :=
  parJoin_iff.2 (h _ rfl)

namespace Byz

variable {z : Byz P}

/-! ### Messages of parties following the protocol -/

/-- What is known when a message of a party following the protocol arrives. -/
theorem arrives (ok : z.Ok) {G : History P} {e : sp.Id → Nat} {net : Net P} (h : z.NetInv G e net) {d x : sp.Id} {m : Message sp}
    {s : Session P} {a : Accum P} (hn : net.node d = some (.running s a)) {t : Nat} (he : e d = t + 1) (hs : z.SessInv G d t s)
    (ha : z.AccInv G e d t a) (hx : z.H x) {u : Nat} (hu : u < e x) (hd : (z.pl.dAt u x).contains d = true)
    (hm : z.MsgAt G x d u m) (hnr : ¬ z.Recv net e d x u) :
    EchoWellFormed s ∧ ¬ HasError s a x ∧ (z.pl.xAt u d).contains x = true ∧ Authentic x s.sessionId (z.pl.idAt u) m.direct m.echo m.normal ∧
      ((u = t ∧ a.payloads.contains x = false ∧ z.pl.idAt u = s.transition.id) ∨
       (u = t + 1 ∧ z.pl.idAt u ≠ s.transition.id ∧ Simultaneous s (z.pl.idAt u) ∧ ¬ IsCached a x (z.pl.idAt u))) := by
  have hdH := h.who d _ hn
  have rob := ok.rob
  have hst0 := h.entered _ _ hu
  have hsrc := (dest_symm ok hst0 hx hd).2 hdH
  have hlow : t ≤ u := by
    by_contra hc
    exact hnr ⟨s, a, hn, Or.inl (by omega)⟩
  have hhigh : u ≤ t + 1 := by
    rcases Nat.lt_or_ge u 2 with hlt | hge
    · omega
    · have hback := heard ok hge hst0 hx hd
      have h4 := h.sync x d (u - 1) hx hdH hback (by omega)
      omega
  have hau := hm.authentic
  rw [← hs.sid] at hau
  have hwf : EchoWellFormed s := by
    intro hsome
    cases hr : s.round with
    | echo er => simp [echo_echoInfo hs.proper hr] at hsome
    | main r =>
      rw [hs.rid]
      cases hq : z.pl.at' t with
      | mk k b =>
        cases b with
        | false => simp only [Plan.idAt, posId, show pos z.pl.echoAt t = _ from hq]
        | true =>
          obtain ⟨c, er, -, h2, -⟩ := hs.round.echo k hq
          rw [hr] at h2
          simp at h2
  have hh := (ha.loc x).honest hx
  have hne : ¬ HasError s a x := by
    rintro (⟨y, h1⟩ | ⟨y, h1⟩ | ⟨y, h1⟩ | ⟨y, h1⟩)
    · rw [hs.transcript.provable x hx] at h1; simp at h1
    · rw [hs.transcript.unprovable x hx] at h1; simp at h1
    · rw [show a.provable.get? x = none from hh.provable] at h1; simp at h1
    · rw [show a.unprovable.get? x = none from hh.unprovable] at h1; simp at h1
  refine ⟨hwf, hne, hsrc, hau, ?_⟩
  rcases Nat.eq_or_lt_of_le hlow with heq | hlt
  · subst heq
    refine Or.inl ⟨rfl, ?_, hs.rid.symm⟩
    by_contra hc
    exact hnr ⟨s, a, hn, Or.inr (Or.inl ⟨by omega, by simpa using hc⟩)⟩
  · have heq : u = t + 1 := by omega
    subst heq
    refine Or.inr ⟨rfl, ?_, ?_, ?_⟩
    · intro hc
      rw [hs.rid] at hc
      have := pos_inj _ (posId_inj rob.ids rob.notEcho hst0 hs.stage hc)
      omega
    · unfold Simultaneous
      cases hb : (z.pl.at' (t + 1)).2 with
      | true =>
        left
        have hes := hs.echoInfo
        rw [hb] at hes
        rw [if_pos hes, hs.rid]
        obtain ⟨k, hq, hek⟩ := before hb
        have hkn : k < z.pl.n := by have := hs.stage; rw [hq] at this; exact this
        simp only [Plan.idAt, pos, show pos z.pl.echoAt t = (k, false) from hq, nextPos, hek, if_true]
        rw [posId_main (rob.notEcho k hkn)]
        exact posId_echo (rob.notEcho k hkn)
      | false =>
        right; right
        have hq1 := Plan.after hb
        rw [hq1] at hst0
        have := hs.next hst0
        simp only [Plan.idAt]
        rw [show pos z.pl.echoAt (t + 1) = _ from hq1, posId_main (rob.notEcho _ hst0)]
        exact this
    · intro hc
      exact hnr ⟨s, a, hn, Or.inr (Or.inr ⟨by omega, hc⟩)⟩

/-- A genuine message of this round is handed on. -/
theorem preprocess_process (mt : sp.MetaTotal) {s : Session P} (wf : EchoWellFormed s) {a : Accum P} {x : sp.Id} {m : Message sp}
    (hau : Authentic x s.sessionId s.transition.id m.direct m.echo m.normal)
    (hne : ¬ HasError s a x) (hpr : a.processing.contains x = false) :
    s.preprocess a x m = .ok ({ a with processing := BSet.insert a.processing x }, .toProcess (verifiedOf x m)) := by
  have hmeta : m.direct.metadata = ⟨s.sessionId, s.transition.id⟩ := hau.1.1
  have hrow : Row s a x m .process :=
    .process ⟨hne, authentic_coherent hau, by rw [hmeta], by rw [hmeta]⟩ hpr hau
  rw [C02_decision_table mt s wf a x m _ hrow]
  rfl

/-- A genuine message of a simultaneous round is kept. -/
theorem preprocess_keep (mt : sp.MetaTotal) {s : Session P} (wf : EchoWellFormed s) {a : Accum P} {x : sp.Id} {m : Message sp}
    {rid : RoundId} (hau : Authentic x s.sessionId rid m.direct m.echo m.normal) (hrid : rid ≠ s.transition.id)
    (hsim : Simultaneous s rid) (hne : ¬ HasError s a x) (hc : ¬ IsCached a x rid) :
    s.preprocess a x m = .ok ({ a with
      cached := a.cached.insert x (((a.cached.get? x).getD BMap.empty).insert rid (verifiedOf x m)) }, .cached) := by
  have hmeta : m.direct.metadata = ⟨s.sessionId, rid⟩ := hau.1.1
  have hrow : Row s a x m .keep :=
    .keep ⟨hne, authentic_coherent hau, by rw [hmeta], by rw [hmeta]; exact hrid, by rw [hmeta]; exact hsim⟩
      (by rw [hmeta]; exact hc) (by rw [hmeta]; exact hau)
  rw [C02_decision_table mt s wf a x m _ hrow]
  simp [Verdict.effect, hmeta]

/-! ### Changing what a party holds -/

/-- A party changes what it holds of parties not following the protocol, or puts back on the wire messages it has kept. -/
theorem NetInv.rewire (ok : z.Ok) {G : History P} {e : sp.Id → Nat} {net : Net P} (h : z.NetInv G e net) {d : sp.Id}
    {s : Session P} {a a' : Accum P} (hn : net.node d = some (.running s a)) {t : Nat} (he : e d = t + 1)
    (ha' : z.AccInv G e d t a') {ps : List (Packet sp)}
    (hpay : ∀ j, z.H j → a'.payloads.contains j = a.payloads.contains j)
    (hcached : ∀ j r, z.H j → IsCached a' j r → IsCached a j r)
    (hback : ∀ j r, z.H j → IsCached a j r → IsCached a' j r ∨
      ∃ p ∈ ps, p.src = j ∧ p.dest = d ∧ p.message.direct.metadata.roundId = r)
    (hps : ∀ p ∈ ps, z.H p.src ∧ p.dest = d ∧ (z.pl.xAt (t + 1) d).contains p.src = true ∧ t + 1 < e p.src ∧
      z.MsgAt G p.src d (t + 1) p.message ∧ IsCached a p.src (z.pl.idAt (t + 1)) ∧ ¬ IsCached a' p.src (z.pl.idAt (t + 1)))
    (hpair : ps.Pairwise (fun p q => p.src ≠ q.src)) :
    z.NetInv G e ⟨Function.update net.node d (some (.running s a')), net.wire ++ ps⟩ := by
  have hdH := h.who d _ hn
  obtain ⟨t', he', hs, ha⟩ := h.running d s a hn
  have : t' = t := by omega
  subst this
  have hrecv : ∀ d' j u, z.H j → z.Recv ⟨Function.update net.node d (some (.running s a')), net.wire ++ ps⟩ e d' j u →
      z.Recv net e d' j u := by
    rintro d' j u hj ⟨s', b, hb, hc⟩
    by_cases hd : d' = d
    · subst hd
      simp only [Function.update_self, Option.some.injEq, RunState.running.injEq] at hb
      obtain ⟨rfl, rfl⟩ := hb
      refine ⟨s, a, hn, ?_⟩
      rcases hc with hc | ⟨hc, hp⟩ | ⟨hc, hp⟩
      · exact Or.inl hc
      · exact Or.inr (Or.inl ⟨hc, by rw [← hpay j hj]; exact hp⟩)
      · exact Or.inr (Or.inr ⟨hc, hcached j _ hj hp⟩)
    · simp only [Function.update_of_ne hd] at hb
      exact ⟨s', b, hb, hc⟩
  refine ⟨h.history, ?_, ?_, ?_, ?_, h.entered, h.sync, ?_, ?_, ?_, ?_⟩
  · intro i hi
    by_cases hd : i = d
    · subst hd; simp at hi
    · simp only [Function.update_of_ne hd] at hi; exact h.idle i hi
  · intro i st hi
    by_cases hd : i = d
    · subst hd; exact hdH
    · simp only [Function.update_of_ne hd] at hi; exact h.who i st hi
  · intro i s' b hi
    by_cases hd : i = d
    · subst hd
      simp only [Function.update_self, Option.some.injEq, RunState.running.injEq] at hi
      obtain ⟨rfl, rfl⟩ := hi
      exact ⟨t', he, hs, ha'⟩
    · simp only [Function.update_of_ne hd] at hi; exact h.running i s' b hi
  · intro i rep hi
    by_cases hd : i = d
    · subst hd; simp at hi
    · simp only [Function.update_of_ne hd] at hi; exact h.done i rep hi
  · intro p hp hsrc
    rcases List.mem_append.1 hp with hp | hp
    · obtain ⟨u, h1, h2, h3, h4⟩ := h.wire p hp hsrc
      exact ⟨u, h1, h2, h3, fun hc => h4 (hrecv _ _ _ hsrc hc)⟩
    · obtain ⟨-, h2, h3, h4, h5, h6, h7⟩ := hps p hp
      refine ⟨t' + 1, h4, ?_, by rw [h2]; exact h5, ?_⟩
      · have := ok.rob.pattern.matched _ _ _ (h.entered _ _ h4) (ok.rob.members _ hsrc) (ok.rob.members d hdH)
        rw [h2]
        simp only [Plan.dAt]
        simp only [Plan.xAt] at h3
        exact this.trans h3
      · rintro ⟨s', b, hb, hc⟩
        rw [h2] at hb hc
        simp only [Function.update_self, Option.some.injEq, RunState.running.injEq] at hb
        obtain ⟨rfl, rfl⟩ := hb
        rcases hc with hc | ⟨hc, -⟩ | ⟨-, hc⟩
        · omega
        · omega
        · exact h7 hc
  · intro p hp hsrc
    rcases List.mem_append.1 hp with hp | hp
    · exact h.fair p hp hsrc
    · exact absurd (hps p hp).1 hsrc
  · rw [List.pairwise_append]
    refine ⟨h.differ, hpair.imp fun hne hd => hne hd.2.1, ?_⟩
    rintro p hp q hq ⟨h1, h2, h3, h4⟩
    obtain ⟨u, g1, g2, g3, g4⟩ := h.wire p hp h1
    obtain ⟨-, k2, -, k4, k5, k6, -⟩ := hps q hq
    rw [g3.roundId, k5.roundId] at h4
    have := h.ids ok g1 k4 h4
    subst this
    apply g4
    rw [h3, k2, h2]
    exact ⟨s, a, hn, Or.inr (Or.inr ⟨he.symm, k6⟩)⟩
  · intro d' j u hd' hj hu hdj
    rcases h.sent d' j u hd' hj hu hdj with ⟨p, hp, h1⟩ | ⟨s', b, hb, hc⟩ | ⟨r, hr⟩
    · exact Or.inl ⟨p, List.mem_append.2 (Or.inl hp), h1⟩
    · by_cases hd : d' = d
      · subst hd
        rw [hn] at hb
        simp only [Option.some.injEq, RunState.running.injEq] at hb
        obtain ⟨rfl, rfl⟩ := hb
        rcases hc with hc | ⟨hc, hp⟩ | ⟨hc, hp⟩
        · exact Or.inr (Or.inl ⟨s, a', by simp, Or.inl hc⟩)
        · exact Or.inr (Or.inl ⟨s, a', by simp, Or.inr (Or.inl ⟨hc, by rw [hpay j hj]; exact hp⟩)⟩)
        · rcases hback j _ hj hp with hp | ⟨p, hp, h1, h2, h3⟩
          · exact Or.inr (Or.inl ⟨s, a', by simp, Or.inr (Or.inr ⟨hc, hp⟩)⟩)
          · exact Or.inl ⟨p, List.mem_append.2 (Or.inr hp), h1, h2, h3⟩
      · exact Or.inr (Or.inl ⟨s', b, by simp only [Function.update_of_ne hd]; exact hb, hc⟩)
    · by_cases hd : d' = d
      · subst hd; rw [hn] at hr; simp at hr
      · exact Or.inr (Or.inr ⟨r, by simp only [Function.update_of_ne hd]; exact hr⟩)

end Byz

end Manul
