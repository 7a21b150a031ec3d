import Verif.Lemmas.Deviate
import Verif.Lemmas.RunSync
import Verif.Lemmas.Par

/-!
# Executions in which one party deviates: the accumulators of the others
-/

namespace Manul

variable {sp : SP} {P : Proto sp}

/-! ### Lists -/

theorem perm_drop {α : Type} {p : α} {w w' a b : List α} (h : (w ++ p :: w').Perm (a ++ p :: b)) : (w ++ w').Perm (a ++ b) :=
  (List.perm_cons p).1 ((List.perm_middle.symm.trans h).trans List.perm_middle)

theorem filterMap_without {α β γ : Type} [DecidableEq α] {f : α × β → Option γ} {t : α} :
    ∀ {l : List (α × β)}, (l.map (·.1)).Nodup →
      ∃ l1 l2, (l.filter (fun e => decide (e.1 ≠ t))).filterMap f = l1 ++ l2 ∧
        ((l.filterMap f = l1 ++ l2 ∧ ∀ v c, (t, v) ∈ l → f (t, v) ≠ some c) ∨
          ∃ v c, (t, v) ∈ l ∧ f (t, v) = some c ∧ l.filterMap f = l1 ++ c :: l2) := by
  intro l
  induction l with
  | nil => intro _; exact ⟨[], [], rfl, Or.inl ⟨rfl, by simp⟩⟩
  | cons e l ih =>
    intro hnd
    simp only [List.map_cons, List.nodup_cons] at hnd
    by_cases ht : e.1 = t
    · have hrest : l.filter (fun e => decide (e.1 ≠ t)) = l := by
        rw [List.filter_eq_self]
        intro x hx
        simp only [ne_eq, decide_not, Bool.not_eq_eq_eq_not, Bool.not_true, decide_eq_false_iff_not]
        intro hc
        exact hnd.1 (List.mem_map.2 ⟨x, hx, by rw [hc, ht]⟩)
      have hfil : (e :: l).filter (fun e => decide (e.1 ≠ t)) = l := by
        rw [List.filter_cons_of_neg (by simp [ht]), hrest]
      refine ⟨[], l.filterMap f, by rw [hfil]; rfl, ?_⟩
      cases hf : f e with
      | none =>
        left
        refine ⟨by simp [hf], ?_⟩
        intro v c hv hc
        rw [List.mem_cons] at hv
        rcases hv with hv | hv
        · rw [← hv, hc] at hf; cases hf
        · exact hnd.1 (List.mem_map.2 ⟨_, hv, by rw [ht]⟩)
      | some c =>
        right
        obtain ⟨k, v⟩ := e
        simp only at ht
        subst ht
        exact ⟨v, c, by simp, hf, by simp [hf]⟩
    · obtain ⟨l1, l2, h1, h2⟩ := ih hnd.2
      have hfil : (e :: l).filter (fun e => decide (e.1 ≠ t)) = e :: l.filter (fun e => decide (e.1 ≠ t)) := by
        simp [ht]
      have hmem : ∀ v, (t, v) ∈ e :: l ↔ (t, v) ∈ l := by
        intro v
        rw [List.mem_cons]
        constructor
        · rintro (h | h)
          · exact absurd (by rw [← h]) ht
          · exact h
        · exact Or.inr
      simp only [hmem]
      rw [hfil]
      cases hf : f e with
      | none =>
        rw [List.filterMap_cons_none hf, List.filterMap_cons_none hf]
        exact ⟨l1, l2, h1, h2⟩
      | some c =>
        rw [List.filterMap_cons_some hf, List.filterMap_cons_some hf]
        refine ⟨c :: l1, l2, by rw [h1]; rfl, ?_⟩
        rcases h2 with ⟨h2, h3⟩ | ⟨v, d, h2, h3, h4⟩
        · exact Or.inl ⟨by rw [h2]; rfl, h3⟩
        · exact Or.inr ⟨v, d, h2, h3, by rw [h4]; rfl⟩

/-- What is kept with and without the messages of a party. -/
theorem filterMessages_without {c c' : BMap sp.Id (BMap RoundId (VerifiedMessage sp))} {t : sp.Id} {r : RoundId}
    (hoff : ∀ x, x ≠ t → c.get? x = c'.get? x) (hno : ∀ en vm, c'.get? t = some en → en.get? r ≠ some vm) :
    ∃ l1 l2, Accum.filterMessages c' r = l1 ++ l2 ∧
      ((Accum.filterMessages c r = l1 ++ l2 ∧ ∀ en vm, c.get? t = some en → en.get? r ≠ some vm) ∨
        ∃ en vm, c.get? t = some en ∧ en.get? r = some vm ∧ Accum.filterMessages c r = l1 ++ vm :: l2) := by
  have herase : c.erase t = c'.erase t := by
    refine BMap.ext fun k => ?_
    simp only [BMap.get?_erase]
    by_cases hk : k = t
    · simp [hk]
    · simp [hk, hoff k hk]
  have hfm : ∀ d : BMap sp.Id (BMap RoundId (VerifiedMessage sp)), Accum.filterMessages d r =
      d.toList.filterMap (fun e => e.2.get? r) := by
    intro d
    unfold Accum.filterMessages BMap.values
    rw [List.filterMap_map]
    rfl
  have hel : ∀ d : BMap sp.Id (BMap RoundId (VerifiedMessage sp)),
      (d.erase t).toList = d.toList.filter (fun e => decide (e.1 ≠ t)) := fun d => rfl
  obtain ⟨l1, l2, h1, h2⟩ := filterMap_without (t := t) (f := fun e : sp.Id × BMap RoundId (VerifiedMessage sp) => e.2.get? r)
    c.toList_nodupKeys
  obtain ⟨l1', l2', h1', h2'⟩ := filterMap_without (t := t) (f := fun e : sp.Id × BMap RoundId (VerifiedMessage sp) => e.2.get? r)
    c'.toList_nodupKeys
  refine ⟨l1, l2, ?_, ?_⟩
  · rw [hfm]
    rcases h2' with ⟨h3, -⟩ | ⟨v, d, h3, h4, -⟩
    · rw [h3, ← h1', ← h1, ← hel, ← hel, herase]
    · exact absurd h4 (hno v d (BMap.mem_toList.1 h3))
  · rw [hfm]
    rcases h2 with ⟨h3, h4⟩ | ⟨v, d, h3, h4, h5⟩
    · exact Or.inl ⟨h3, fun en vm hen => h4 en vm (BMap.mem_toList.2 hen)⟩
    · exact Or.inr ⟨v, d, BMap.mem_toList.1 h3, h4, h5⟩

/-! ### Accumulators with the deviating party banned -/

variable {ch : Charge sp}

/-- The second accumulator is the first one with party `t` banned. -/
structure Ban (ch : Charge sp) (t : sp.Id) (a' a : Accum P) : Prop where
  expecting : a.expecting = a'.expecting
  payloads : a.payloads = a'.payloads
  unprovable : a.unprovable = a'.unprovable
  notSent : ∀ x, a.notSent.contains x = (a'.notSent.contains x && !decide (x = t))
  provable : ∃ ev : Evidence sp, ch.evidence ev ∧ ev.Accuses t ∧ ∀ x, a.provable.get? x = if x = t then some ev else none
  processing : ∀ x, x ≠ t → a.processing.contains x = a'.processing.contains x

theorem Ban.accept {t : sp.Id} {a' a : Accum P} (h : Ban ch t a' a) (x : sp.Id) (m : Message sp) (v : Option P.Payload) :
    Ban ch t (a'.accept x m v) (a.accept x m v) := by
  obtain ⟨h1, h2, h3, h4, h5, h6⟩ := h
  refine ⟨h1, by simp only [Accum.accept, h2], h3, ?_, h5, h6⟩
  intro y
  simp only [Accum.accept, BMap.contains_erase, h4]
  cases a'.notSent.contains y <;> cases decide (y = t) <;> simp

theorem newProvableError_accuses {who : sp.Id} {echo : SignedPart .echo} {normal : SignedPart .normal}
    {direct : SignedPart .direct} {req : RequiredMessages} {ser : Except LErr Bytes} {tr : Transcript sp} {ev : Evidence sp}
    (h : Evidence.newProvableError who echo normal direct req ser tr = .ok ev) : ev.Accuses who := by
  unfold Evidence.newProvableError at h
  split at h
  · cases h
  · split at h
    · cases h
    · split at h
      · cases h
      · simp only [Except.ok.injEq] at h
        subst h
        exact ⟨rfl, Or.inr ⟨_, rfl⟩⟩

/-- A message of a party that is rejected with a provable error. -/
theorem applyVerified_rejects {s : Session P} {a : Accum P} {t : sp.Id} {m : Message sp} {err : RecvErr sp}
    (hpay : a.payloads.contains t = false) (hns : a.notSent.contains t = true) (hpr : a.provable.contains t = false)
    (hr : s.round.receive t (verifiedOf t m).dyn = .error err) (hp : err.Provable ∧ ch.error err) (hme : MakesEvidence ch s)
    (hau : Authentic t s.sessionId s.transition.id m.direct m.echo m.normal) (hx : s.comm.expecting.contains t = true) :
    ∃ ev : Evidence sp, ch.evidence ev ∧ ev.Accuses t ∧
      applyVerified s a (verifiedOf t m) = .ok { a with notSent := a.notSent.erase t, provable := a.provable.insert t ev } := by
  have e1 : (verifiedOf t m).sender = t := rfl
  have hrej : ∀ ev : Evidence sp, (({ a with notSent := a.notSent.erase t } : Accum P).registerProvable t ev) =
      .ok { a with notSent := a.notSent.erase t, provable := a.provable.insert t ev } := by
    intro ev
    simp only [Accum.registerProvable, hpr, Bool.false_eq_true, if_false]
  cases err with
  | invalidDirect =>
    refine ⟨⟨t, .invalidDirect m.direct⟩, hme.malformed (verifiedOf t m) hp.2 hx hau hr, ⟨rfl, Or.inl ⟨_, rfl⟩⟩, ?_⟩
    simp only [applyVerified, Session.addProcessed, Session.process, Accum.addProcessed, e1, hpay, hns, hr]
    exact hrej _
  | protocol req ser =>
    cases ser with
    | error e => exact hp.1.elim
    | ok ser =>
      obtain ⟨ev, hev, hch⟩ := hme.protocol (verifiedOf t m) req ser hp.2 hx hau hr
      refine ⟨ev, hch, newProvableError_accuses hev, ?_⟩
      rw [e1] at hev
      simp only [applyVerified, Session.addProcessed, Session.process, Accum.addProcessed, e1, hpay, hns, hr]
      simp only [Bool.false_eq_true, if_false, hev]
      exact hrej _
  | _ => exact hp.1.elim

/-- A cached message that the round accepts. -/
def Good (s : Session P) (t : sp.Id) (vm : VerifiedMessage sp) : Prop :=
  vm.sender ≠ t ∧ ∃ m v, vm = verifiedOf vm.sender m ∧ s.round.receive vm.sender (verifiedOf vm.sender m).dyn = .ok v

theorem Good.apply {s : Session P} {t : sp.Id} {vm : VerifiedMessage sp} (h : Good s t vm) {a b : Accum P}
    (ha : applyVerified s a vm = .ok b) : ∃ m v, vm = verifiedOf vm.sender m ∧ b = a.accept vm.sender m v ∧
      a.payloads.contains vm.sender = false ∧ a.notSent.contains vm.sender = true ∧
      s.round.receive vm.sender (verifiedOf vm.sender m).dyn = .ok v := by
  obtain ⟨-, m, v, h1, h2⟩ := h
  have hpn : a.payloads.contains vm.sender = false ∧ a.notSent.contains vm.sender = true := by
    simp only [applyVerified, Session.addProcessed, Session.process, Accum.addProcessed] at ha
    cases h3 : a.payloads.contains vm.sender with
    | true => simp [h3] at ha
    | false =>
      cases h4 : a.notSent.contains vm.sender with
      | false => simp [h3, h4] at ha
      | true => exact ⟨rfl, rfl⟩
  refine ⟨m, v, h1, ?_, hpn.1, hpn.2, h2⟩
  have := applyVerified_accepts (m := m) hpn.1 hpn.2 h2
  rw [← h1, ha] at this
  exact Except.ok.inj this

theorem good_fold {s : Session P} {t : sp.Id} {cs : List (VerifiedMessage sp)} (hcs : ∀ vm ∈ cs, Good s t vm) :
    ∀ {a b : Accum P}, foldE (applyVerified s) a cs = .ok b → b.payloads.contains t = a.payloads.contains t ∧
      b.notSent.contains t = a.notSent.contains t ∧ b.provable = a.provable ∧ b.unprovable = a.unprovable ∧
      b.processing = a.processing ∧ b.expecting = a.expecting := by
  induction cs with
  | nil =>
    intro a b h
    simp only [foldE, Except.ok.injEq] at h
    subst h
    exact ⟨rfl, rfl, rfl, rfl, rfl, rfl⟩
  | cons vm cs ih =>
    intro a b h
    simp only [foldE] at h
    cases hv : applyVerified s a vm with
    | error e => rw [hv] at h; cases h
    | ok a1 =>
      rw [hv] at h
      have hg := hcs vm (List.mem_cons_self ..)
      obtain ⟨m, v, -, h2, -, -, -⟩ := hg.apply hv
      obtain ⟨g1, g2, g3, g4, g5, g6⟩ := ih (fun w hw => hcs w (List.mem_cons_of_mem _ hw)) h
      have hne : t ≠ vm.sender := fun hc => hg.1 hc.symm
      rw [g1, g2, g3, g4, g5, g6, h2]
      simp [Accum.accept, hne]

theorem ban_fold {s : Session P} {t : sp.Id} {cs : List (VerifiedMessage sp)} (hcs : ∀ vm ∈ cs, Good s t vm) :
    ∀ {a' a b' : Accum P}, Ban ch t a' a → foldE (applyVerified s) a' cs = .ok b' →
      ∃ b, foldE (applyVerified s) a cs = .ok b ∧ Ban ch t b' b := by
  induction cs with
  | nil =>
    intro a' a b' hb h
    simp only [foldE, Except.ok.injEq] at h
    subst h
    exact ⟨a, rfl, hb⟩
  | cons vm cs ih =>
    intro a' a b' hb h
    simp only [foldE] at h
    cases hv : applyVerified s a' vm with
    | error e => rw [hv] at h; cases h
    | ok a1 =>
      rw [hv] at h
      have hg := hcs vm (List.mem_cons_self ..)
      obtain ⟨m, v, h1, h2, h3, h4, h5⟩ := hg.apply hv
      rw [h2] at h
      obtain ⟨b, g1, g2⟩ := ih (fun w hw => hcs w (List.mem_cons_of_mem _ hw)) (hb.accept vm.sender m v) h
      refine ⟨b, ?_, g2⟩
      have := applyVerified_accepts (s := s) (a := a) (m := m) (by rw [hb.payloads]; exact h3)
        (by rw [hb.notSent, h4]; simp [hg.1]) h5
      rw [← h1] at this
      simp only [foldE, this]
      exact g1

/-- Applying the cached messages when there is a bad one among them. -/
theorem fold_rejects {s : Session P} {t : sp.Id} {l1 l2 : List (VerifiedMessage sp)} (h1 : ∀ vm ∈ l1, Good s t vm)
    (h2 : ∀ vm ∈ l2, Good s t vm) {a b' : Accum P} (hf : foldE (applyVerified s) a (l1 ++ l2) = .ok b') {m : Message sp}
    {err : RecvErr sp}
    (hpay : a.payloads.contains t = false) (hns : a.notSent.contains t = true) (hpr : ∀ x, a.provable.get? x = none)
    (hr : s.round.receive t (verifiedOf t m).dyn = .error err) (hp : err.Provable ∧ ch.error err) (hme : MakesEvidence ch s)
    (hau : Authentic t s.sessionId s.transition.id m.direct m.echo m.normal) (hx : s.comm.expecting.contains t = true) :
    ∃ b, foldE (applyVerified s) a (l1 ++ verifiedOf t m :: l2) = .ok b ∧ Ban ch t b' b := by
  obtain ⟨a1, g1, g2⟩ := (foldE_append _ _ _ _ _).1 hf
  obtain ⟨k1, k2, k3, k4, k5, k6⟩ := good_fold h1 g1
  have hemp : a.provable = BMap.empty := BMap.eq_empty_iff.2 hpr
  obtain ⟨ev, e0, e1, e2⟩ := applyVerified_rejects (s := s) (a := a1) (m := m) (by rw [k1]; exact hpay) (by rw [k2]; exact hns)
    (by rw [k3, hemp]; rfl) hr hp hme hau hx
  obtain ⟨b, f1, f2⟩ := ban_fold h2 (a := { a1 with notSent := a1.notSent.erase t, provable := a1.provable.insert t ev })
    (a' := a1) ⟨rfl, rfl, rfl, by intro x; simp only [BMap.contains_erase]; cases a1.notSent.contains x <;> simp,
      ⟨ev, e0, e1, by intro x; simp only [BMap.get?_insert, k3, hpr]⟩, fun _ _ => rfl⟩ g2
  refine ⟨b, (foldE_append _ _ _ _ _).2 ⟨a1, g1, ?_⟩, f2⟩
  simp only [foldE, e2]
  exact f1

/-- The banned party's messages are ignored. -/
theorem Ban.ignores (mt : sp.MetaTotal) {t : sp.Id} {a' a : Accum P} (h : Ban ch t a' a) {s : Session P} (wf : EchoWellFormed s)
    (m : Message sp) : deliver s a t m = .ok a := by
  obtain ⟨ev, -, -, hev⟩ := h.provable
  unfold deliver
  rw [C02_decision_table mt s wf a t m _ (.banned (Or.inr (Or.inr (Or.inl ⟨ev, by rw [hev, if_pos rfl]⟩))))]
  rfl

/-- A bad message of the round. -/
theorem deliver_rejects (mt : sp.MetaTotal) {s : Session P} (wf : EchoWellFormed s) {a : Accum P} {t : sp.Id} {m : Message sp}
    {err : RecvErr sp} (hau : Authentic t s.sessionId s.transition.id m.direct m.echo m.normal)
    (hne : ¬ HasError s a t) (hpc : a.processing.contains t = false) (hpay : a.payloads.contains t = false)
    (hns : a.notSent.contains t = true) (hpr : ∀ x, a.provable.get? x = none)
    (hr : s.round.receive t (verifiedOf t m).dyn = .error err) (hp : err.Provable ∧ ch.error err) (hme : MakesEvidence ch s)
    (hx : s.comm.expecting.contains t = true) : ∃ b, deliver s a t m = .ok b ∧ Ban ch t a b := by
  have hmeta : m.direct.metadata = ⟨s.sessionId, s.transition.id⟩ := hau.1.1
  have hrow : Row s a t m .process :=
    .process ⟨hne, authentic_coherent hau, by rw [hmeta], by rw [hmeta]⟩ hpc hau
  have hemp : a.provable = BMap.empty := BMap.eq_empty_iff.2 hpr
  obtain ⟨ev, e0, e1, e2⟩ := applyVerified_rejects (s := s) (a := { a with processing := BSet.insert a.processing t }) (m := m) hpay hns
    (by simp only [hemp]; rfl) hr hp hme hau hx
  have hdel : deliver s a t m = .ok { a with
      processing := BSet.insert a.processing t, notSent := a.notSent.erase t, provable := a.provable.insert t ev } := by
    unfold deliver
    rw [C02_decision_table mt s wf a t m _ hrow]
    exact e2
  refine ⟨_, hdel, ?_⟩
  · refine ⟨rfl, rfl, rfl, ?_, ⟨ev, e0, e1, ?_⟩, ?_⟩
    · intro x; simp only [BMap.contains_erase]; cases a.notSent.contains x <;> simp
    · intro x; simp only [BMap.get?_insert, hpr]
    · intro x hxt; simp only [BSet.contains_insert, hxt, decide_false, Bool.false_or]

/-- Messages of other parties are accepted all the same. -/
theorem Ban.accepts (mt : sp.MetaTotal) {t : sp.Id} {a' a : Accum P} (h : Ban ch t a' a) {s : Session P} (wf : EchoWellFormed s)
    {x : sp.Id} (hxt : x ≠ t) {m : Message sp} {v : Option P.Payload}
    (hau : Authentic x s.sessionId s.transition.id m.direct m.echo m.normal)
    (hne : ¬ HasError s a' x) (hpr : a'.processing.contains x = false) (hpay : a'.payloads.contains x = false)
    (hns : a'.notSent.contains x = true) (hr : s.round.receive x (verifiedOf x m).dyn = .ok v) :
    ∃ b' b, deliver s a' x m = .ok b' ∧ deliver s a x m = .ok b ∧ Ban ch t b' b := by
  have hpe := h.processing x hxt
  have h1 := deliver_accepts mt wf hau hne hpr hpay hns hr
  have hne' : ¬ HasError s a x := by
    obtain ⟨ev, -, -, hev⟩ := h.provable
    rintro (hc | hc | ⟨y, hc⟩ | ⟨y, hc⟩)
    · exact hne (Or.inl hc)
    · exact hne (Or.inr (Or.inl hc))
    · rw [hev, if_neg hxt] at hc; cases hc
    · exact hne (Or.inr (Or.inr (Or.inr ⟨y, by rw [← h.unprovable]; exact hc⟩)))
  have h2 := deliver_accepts mt wf (a := a) hau hne' (by rw [hpe]; exact hpr) (by rw [h.payloads]; exact hpay)
    (by rw [h.notSent, hns]; simp [hxt]) hr
  refine ⟨_, _, h1, h2, ?_⟩
  obtain ⟨k1, k2, k3, k4, k5, k6⟩ := h
  refine ⟨k1, by simp only [k2], k3, ?_, k5, ?_⟩
  · intro y
    simp only [BMap.contains_erase, k4]
    cases a'.notSent.contains y <;> cases decide (y = t) <;> simp
  · intro y hy
    simp only [BSet.contains_insert, k6 y hy]

namespace Scheme

variable {sc : Scheme P}

/-- The transcript can be updated also when messages are missing and parties are banned. -/
theorem updates_any (ok : sc.Ok) {L : Ledger P} {i : sp.Id} {t : Nat} {s : Session P} {a : Accum P}
    (hs : sc.SessInv L i t s) (hun : ∀ x, a.unprovable.get? x = none) :
    ∃ tr, s.updatedTranscript a = .ok tr ∧ (∀ x, tr.provable.get? x = a.provable.get? x) ∧ ∀ x, tr.unprovable.get? x = none := by
  have e2 : a.unprovable = BMap.empty := BMap.eq_empty_iff.2 hun
  have e1 : s.transcript.provable = BMap.empty := BMap.eq_empty_iff.2 hs.transcript.provable
  have hid : s.roundId = sc.idAt t := hs.rid
  have hfresh : s.transcript.echos.contains s.roundId = false ∧ s.transcript.normals.contains s.roundId = false ∧
      s.transcript.directs.contains s.roundId = false := by
    by_contra hc
    have : s.transcript.echos.contains s.roundId = true ∨ s.transcript.normals.contains s.roundId = true ∨
        s.transcript.directs.contains s.roundId = true := by
      revert hc
      cases s.transcript.echos.contains s.roundId <;> cases s.transcript.normals.contains s.roundId <;>
        cases s.transcript.directs.contains s.roundId <;> simp
    obtain ⟨t', ht', hr⟩ := hs.transcript.fresh _ this
    rw [hid] at hr
    have hst := spot_mono (Nat.le_of_lt ht')
    have := posId_inj ok.coop.ids ok.coop.notEcho hs.stage (lt_of_le_of_lt hst hs.stage) hr
    have := spot_inj this
    omega
  obtain ⟨f1, f2, f3⟩ := hfresh
  have f4 : s.transcript.missing.contains s.roundId = false := by rw [hs.transcript.missing]; rfl
  have m1 : Transcript.mergeErrors .transcriptProvable s.transcript.provable a.provable = .ok a.provable := by
    rw [e1, mergeErrors_iff]
    exact ⟨fun _ _ => rfl, fun x => by simp⟩
  have m2 : Transcript.mergeErrors .transcriptUnprovable s.transcript.unprovable a.unprovable =
      .ok s.transcript.unprovable := by
    rw [e2]; rfl
  have hup : s.updatedTranscript a = .ok ⟨s.transcript.echos.insert s.roundId (a.echos.insert s.me s.echo),
      s.transcript.normals.insert s.roundId a.normals, s.transcript.directs.insert s.roundId a.directs, a.provable,
      s.transcript.unprovable,
      if a.notSent.isEmpty then s.transcript.missing else s.transcript.missing.insert s.roundId a.notSent⟩ := by
    unfold Session.updatedTranscript Transcript.update
    simp only [f1, f2, f3, f4, m1, m2, Bool.false_eq_true, if_false]
  refine ⟨_, hup, ?_, ?_⟩
  · intro x; rfl
  · exact hs.transcript.unprovable

/-- When a party with a banned one can finish. -/
theorem Ban.canFinalize {t : sp.Id} {a' a : Accum P} (h : Ban ch t a' a) {L : Ledger P} {e : sp.Id → Nat} {i : sp.Id} {q : Nat}
    (ha : sc.AccInv L e i q a') (hx : (sc.xAt q i).contains t = true) (hp : a'.payloads.contains t = false) :
    (a.canFinalize = .never ∧ ∀ x, x ≠ t → (sc.xAt q i).contains x = true → a'.payloads.contains x = true) ∨
      (a.canFinalize = .notYet ∧ ∃ x, x ≠ t ∧ (sc.xAt q i).contains x = true ∧ a'.payloads.contains x = false) := by
  have h1 : ¬ (a.expecting.elems.all (fun k => a.payloads.contains k) = true) := by
    rw [List.all_eq_true]
    intro hc
    have := hc t (by rw [BSet.mem_elems, h.expecting, ha.expecting]; exact hx)
    rw [h.payloads, hp] at this
    simp at this
  unfold Accum.canFinalize
  rw [if_neg h1]
  by_cases hns : a.notSent.isEmpty = true
  · left
    refine ⟨by simp [hns], ?_⟩
    intro x hxt hxx
    rw [BMap.isEmpty_iff_contains] at hns
    have := hns x
    rw [h.notSent, ha.notSent, hxx] at this
    simpa [hxt] using this
  · right
    have hns' : a.notSent.isEmpty = false := by simpa using hns
    refine ⟨by simp [hns'], ?_⟩
    obtain ⟨x, hxc⟩ := BMap.isEmpty_eq_false.1 hns'
    rw [h.notSent, ha.notSent] at hxc
    simp only [Bool.and_eq_true, Bool.not_eq_true', decide_eq_false_iff_not] at hxc
    exact ⟨x, hxc.2, hxc.1.1, hxc.1.2⟩

/-- Finishing with a banned party. -/
theorem Ban.terminates (ok : sc.Ok) {t : sp.Id} {a' a : Accum P} (h : Ban ch t a' a) {L : Ledger P} {e : sp.Id → Nat} {i : sp.Id}
    {q : Nat} {s : Session P} (hs : sc.SessInv L i q s) (ha : sc.AccInv L e i q a') :
    ∃ rep, s.terminateDueToErrors a = .ok rep ∧ rep.Blames ch t := by
  obtain ⟨tr, h1, h2, h3⟩ := updates_any ok hs (a := a) (by rw [h.unprovable]; exact ha.unprovable)
  obtain ⟨ev, h0, h4, h5⟩ := h.provable
  refine ⟨Report.new .terminated tr, by simp [Session.terminateDueToErrors, Session.terminateInner, h1], h3, ev, h0, h4, ?_⟩
  intro x
  rw [← h5 x, ← h2 x]
  rfl

/-- Only the cached messages of the next round depend on what has been cached. -/
theorem finalize_cached (ok : sc.Ok) {L : Ledger P} {e : sp.Id → Nat} {i : sp.Id} {t : Nat} {s : Session P} {a : Accum P}
    (hs : sc.SessInv L i t s) (ha : sc.AccInv L e i t a) (hall : ∀ x, a.payloads.contains x = (sc.xAt t i).contains x)
    {rng : sp.Rng} {s' : Session P} {cs : List (VerifiedMessage sp)} (h : s.finalizeRound rng a = .ok (.anotherRound s' cs))
    (c : BMap sp.Id (BMap RoundId (VerifiedMessage sp))) :
    s.finalizeRound rng { a with cached := c } = .ok (.anotherRound s' (Accum.filterMessages c s'.transition.id)) := by
  obtain ⟨tr, hu, htr, -⟩ := updates ok hs ha hall
  have hu' : s.updatedTranscript { a with cached := c } = .ok tr := hu
  have hnew : ∀ {rng : sp.Rng} {r : SRound P} {tr : Transcript sp} {s' : Session P},
      Session.newForNextRound rng s.sessionId s.signer r tr = .ok s' → r.transition = .ok s'.transition := by
    intro rng r tr s' hn
    unfold Session.newForNextRound at hn
    cases h1 : r.transition with
    | error e => rw [h1] at hn; cases hn
    | ok ti =>
      simp only [h1] at hn
      split at hn
      · cases hn
      · split at hn
        · cases hn
        · split at hn
          · cases hn
          · split at hn
            · cases hn
            · rw [← Except.ok.inj hn]
  unfold Session.finalizeRound at h ⊢
  rw [hu'] 
  rw [hu] at h
  simp only at h ⊢
  cases hei : s.echoInfo with
  | some info =>
    rw [hei] at h
    simp only at h ⊢
    cases hr : s.round with
    | echo er => rw [hr] at h; cases h
    | main r =>
      rw [hr] at h
      simp only at h ⊢
      unfold Session.startEcho at h ⊢
      cases hb : tr.echoBroadcasts s.roundId with
      | error e => rw [hb] at h; cases h
      | ok ebs =>
        rw [hb] at h
        simp only at h ⊢
        split at h
        · cases h
        · rename_i tt htt
          split at h
          · cases h
          · rename_i s1 hs1
            simp only [Except.ok.injEq, RoundOutcome.anotherRound.injEq] at h
            obtain ⟨rfl, -⟩ := h
            have := hnew hs1
            rw [htt] at this
            simp only [htt, hs1, Except.ok.inj this]
  | none =>
    rw [hei] at h
    simp only at h ⊢
    unfold Session.finalizeProper at h ⊢
    cases hf : s.round.finalize (sp.fork rng 0) a.payloads a.artifacts with
    | error e => rw [hf] at h; cases h
    | ok out =>
      rw [hf] at h
      cases out with
      | result v => cases h
      | anotherRound r =>
        simp only at h ⊢
        split at h
        · cases h
        · rename_i hch
          rw [if_neg hch]
          split at h
          · cases h
          · rename_i s1 hs1
            simp only [Except.ok.injEq, RoundOutcome.anotherRound.injEq] at h
            obtain ⟨rfl, -⟩ := h
            have := hnew hs1
            simp only [SRound.transition, Except.ok.injEq] at this
            rw [this]
            simp only [Except.ok.injEq, RoundOutcome.anotherRound.injEq, true_and]
            rw [List.filter_eq_self]
            intro vm _
            have hp : tr.provable.contains vm.sender = false := by
              simp only [BMap.contains, htr.provable]; rfl
            have hu : tr.unprovable.contains vm.sender = false := by
              simp only [BMap.contains, htr.unprovable]; rfl
            simp [Transcript.isBanned, hp, hu]

end Scheme

end Manul
