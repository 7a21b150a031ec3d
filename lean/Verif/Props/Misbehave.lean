import Verif.Lemmas.Misbehave
import Verif.Props.Deviate
import Verif.Props.Crash
import Verif.Props.Extend
import Verif.Spec.MisbehaveCheck

/-!
# Checking that misbehaviour is detected (C63)

The functions of `dev/misbehave.rs`: what they accept, and that they accept executions in which the extended party sends direct
messages that the others reject.
-/

namespace Manul

variable {sp : SP} {P : Proto sp} {Tag : Type} {tag : P.Rd → Tag}

/-! ### The functions -/

/-- **C63.**  `extend_one` changes the last entry point and leaves the others as they are; it fails if there is none. -/
theorem C63_extend_one (f : ExtEntry P Tag → ExtEntry P Tag) :
    extendOne f [] = .error .noEntryPoints ∧
    ∀ eps signer ep, extendOne f (eps ++ [(signer, ep)]) = .ok (sp.verifyingKey signer,
      eps.map (fun e => (e.1, ⟨e.2, fun _ => none⟩)) ++ [(signer, f ⟨ep, fun _ => none⟩)]) := by
  refine ⟨rfl, ?_⟩
  intro eps signer ep
  simp only [extendOne, List.getLast?_append, List.getLast?_singleton, Option.some_or, List.dropLast_concat]
  rfl

theorem foldE_unit {ε α : Type} {c : α → Except ε Unit} {l : List α} :
    foldE (fun _ e => c e) () l = .ok () ↔ ∀ e ∈ l, c e = .ok () := by
  induction l with
  | nil => simp [foldE]
  | cons x l ih =>
    cases hc : c x with
    | error e => simp [foldE, hc]
    | ok u => simp [foldE, hc, ih]

theorem single_iff {V : Type} {m : BMap sp.Id V} {t : sp.Id} {ev : V} :
    (m.isEmpty = false ∧ m.size ≤ 1 ∧ m.get? t = some ev) ↔ ∀ x, m.get? x = if x = t then some ev else none := by
  constructor
  · rintro ⟨-, h1, h2⟩ x
    by_cases hx : x = t
    · rw [if_pos hx, hx, h2]
    · rw [if_neg hx]
      cases hv : m.get? x with
      | none => rfl
      | some v =>
        exfalso
        have := (List.subperm_of_subset (l₁ := [(x, v), (t, ev)]) (by simp [hx]) (l₂ := m.toList) (by
          intro e he
          simp only [List.mem_cons, List.not_mem_nil, or_false] at he
          rcases he with rfl | rfl
          · exact BMap.mem_toList.2 hv
          · exact BMap.mem_toList.2 h2)).length_le
        unfold BMap.size at h1
        simp only [List.length_cons, List.length_nil] at this
        omega
  · intro h
    refine ⟨BMap.isEmpty_eq_false.2 ⟨t, BMap.contains_iff.2 ⟨ev, by rw [h, if_pos rfl]⟩⟩, ?_, by rw [h, if_pos rfl]⟩
    have := (List.subperm_of_subset (BMap.toList_nodup m) (l₂ := [(t, ev)]) (by
      intro e he
      have h1 := BMap.mem_toList'.1 he
      rw [h] at h1
      by_cases hx : e.1 = t
      · rw [if_pos hx] at h1
        cases h1
        obtain ⟨a, b⟩ := e
        simp only at hx
        subst hx
        exact List.mem_singleton.2 rfl
      · rw [if_neg hx] at h1
        cases h1)).length_le
    simpa [BMap.size] using this

theorem checkReport_ok {t : sp.Id} {shared : P.Shared} {described : Evidence sp → Bool} {i : sp.Id} {r : Report P} :
    checkReport t shared described i r = .ok () ↔ r.Proves t shared described := by
  unfold checkReport Report.Proves
  cases h1 : r.provable.isEmpty with
  | true =>
    simp only [if_true, reduceCtorEq, false_iff]
    rintro ⟨ev, h2, -⟩
    rw [← single_iff] at h2
    rw [h1] at h2
    cases h2.1
  | false =>
    by_cases h2 : 1 < r.provable.size
    · simp only [Bool.false_eq_true, if_false, if_pos h2, reduceCtorEq, false_iff]
      rintro ⟨ev, h3, -⟩
      rw [← single_iff] at h3
      omega
    · simp only [Bool.false_eq_true, if_false, if_neg h2]
      cases h3 : r.provable.get? t with
      | none =>
        simp only [reduceCtorEq, false_iff]
        rintro ⟨ev, h4, -⟩
        rw [h4, if_pos rfl] at h3
        cases h3
      | some ev =>
        have h4 : ∀ x, r.provable.get? x = if x = t then some ev else none := single_iff.1 ⟨h1, by omega, h3⟩
        have key : ∀ q : Evidence sp → Prop, (∃ ev', (∀ x, r.provable.get? x = if x = t then some ev' else none) ∧ q ev') ↔ q ev := by
          intro q
          constructor
          · rintro ⟨ev', h5, h6⟩
            have := h5 t
            rw [if_pos rfl, h3] at this
            cases this
            exact h6
          · intro h; exact ⟨ev, h4, h⟩
        rw [key (fun ev => described ev = true ∧ ev.verify P shared = .ok ())]
        cases h5 : described ev with
        | false => simp [h5]
        | true =>
          cases h6 : ev.verify P shared with
          | error e => simp [h5, h6]
          | ok u => simp [h5, h6]

/-- **C63.**  What `check_evidence` accepts. -/
theorem C63_check (t : sp.Id) (reports : BMap sp.Id (Report P)) (shared : P.Shared) (described : Evidence sp → Bool) :
    checkEvidence t reports shared described = .ok () ↔ Detected t reports shared described := by
  unfold checkEvidence Detected
  cases h1 : reports.get? t with
  | none => simp
  | some r =>
    cases h2 : r.provable.isEmpty with
    | false =>
      simp only [h2, if_true, reduceCtorEq, false_iff]
      rintro ⟨⟨rep, h3, h4⟩, -⟩
      cases h3
      rw [← BMap.isEmpty_iff, h2] at h4
      cases h4
    | true =>
      simp only [h2, Bool.true_eq_false, if_false]
      rw [foldE_unit (c := fun e : sp.Id × Report P => checkReport t shared described e.1 e.2)]
      constructor
      · intro h
        refine ⟨⟨r, rfl, BMap.isEmpty_iff.1 h2⟩, ?_⟩
        intro i rep hi hr
        exact checkReport_ok.1 (h (i, rep) (BMap.mem_toList.2 (by rw [BMap.get?_erase, if_neg hi]; exact hr)))
      · rintro ⟨-, h⟩ ⟨i, rep⟩ he
        have he := BMap.mem_toList.1 he
        rw [BMap.get?_erase] at he
        by_cases hi : i = t
        · rw [if_pos hi] at he; cases he
        · rw [if_neg hi] at he
          exact checkReport_ok.2 (h i rep hi he)

/-- **C63.**  `check_evidence` panics, instead of returning an error, exactly if the report of the misbehaving party itself has a
provable error. -/
theorem C63_check_panics (t : sp.Id) (reports : BMap sp.Id (Report P)) (shared : P.Shared) (described : Evidence sp → Bool) :
    checkEvidence t reports shared described = .error .panicAccuses ↔
      ∃ rep x ev, reports.get? t = some rep ∧ rep.provable.get? x = some ev := by
  unfold checkEvidence
  cases h1 : reports.get? t with
  | none => simp
  | some r =>
    cases h2 : r.provable.isEmpty with
    | false =>
      obtain ⟨x, hx⟩ := BMap.isEmpty_eq_false.1 h2
      obtain ⟨ev, hev⟩ := BMap.contains_iff.1 hx
      simp only [h2, if_true, true_iff]
      exact ⟨r, x, ev, rfl, hev⟩
    | true =>
      simp only [h2, Bool.true_eq_false, if_false]
      constructor
      · intro h
        obtain ⟨s, ⟨i, rep⟩, -, he⟩ := foldE_error h
        simp only [checkReport] at he
        repeat' split at he
        all_goals simp at he
      · rintro ⟨rep, x, ev, h3, h4⟩
        cases h3
        rw [BMap.isEmpty_iff.1 h2 x] at h4
        cases h4

/-! ### Misbehaving parties are detected -/

theorem extendOne_nodes (g : Group P) (exts : Tag → Option (Ext P)) (f : ExtEntry P Tag → ExtEntry P Tag) {t : sp.Id} {l : List sp.Id}
    (hl : g.Enum (l ++ [t])) (hk : g.KeysMatch) (hf : f ⟨g.ep t, fun _ => none⟩ = ⟨g.ep t, exts⟩) :
    ∃ eps, extendOne f (g.nodes (l ++ [t])) = .ok (t, eps) ∧
      eps.map (fun e => (e.1, e.2.toEntry tag)) = (g.extended tag (onlyAt t exts)).nodes (l ++ [t]) := by
  have hnd : t ∉ l := fun h => (List.nodup_append.1 hl.1).2.2 t h t (by simp) rfl
  refine ⟨l.map (fun i => (g.signer i, ⟨g.ep i, fun _ => none⟩)) ++ [(g.signer t, ⟨g.ep t, exts⟩)], ?_, ?_⟩
  · rw [Group.nodes, List.map_append]
    refine ((C63_extend_one f).2 _ _ _).trans ?_
    rw [hf, hk t ((hl.2 t).1 (by simp)), List.map_map]
    rfl
  · simp only [Group.nodes, List.map_append, List.map_map, List.map_cons, List.map_nil]
    congr 1
    · apply List.map_congr_left
      intro i hi
      have hne : i ≠ t := by rintro rfl; exact hnd hi
      simp only [Function.comp, ExtEntry.toEntry, Group.extended, onlyAt, if_neg hne]
    · simp only [ExtEntry.toEntry, Group.extended, onlyAt, if_true]

/-- **C63.**  If the extensions of the last party change its direct messages such that the others reject them, then
`check_evidence_with_extensions` succeeds, whatever the order in which messages are delivered; or it panics, if nobody sends a
message in the first round. -/
theorem C63_detects (sc : Bytes → Scheme P) (ok : ∀ sid, (sc sid).Ok) (hsid : ∀ sid, (sc sid).g.sid = sid) {t : sp.Id} {K : Nat}
    {ch : Charge sp} {inv : Nat → P.Rd → Prop} {exts : Tag → Option (Ext P)}
    (md : ∀ sid, Misdirects (sc sid) tag exts t K ch inv) {l : List sp.Id} {eps : List (sp.Signer × EntryPoint P)}
    (hl : ∀ sid, (sc sid).g.Enum (l ++ [t])) (heps : ∀ sid, eps = (sc sid).g.nodes (l ++ [t])) {f : ExtEntry P Tag → ExtEntry P Tag}
    (hf : ∀ ep, f ⟨ep, fun _ => none⟩ = ⟨ep, exts⟩) {shared : P.Shared} {described : Evidence sp → Bool}
    (hd : ∀ ev, ch.evidence ev → described ev = true)
    (hv : ∀ sid i rng s₀ rep ev, Session.new rng sid ((sc sid).g.signer i) ((sc sid).g.ep i) = .ok s₀ → Reach s₀ (.done (.ok rep)) →
      rep.provable.get? t = some ev → ch.evidence ev → ev.Accuses t → ev.verify P shared = .ok ())
    {o : Except (MisErr sp) Unit} (h : CheckWithExtensions tag eps shared f described o) :
    o = .ok () ∨ (o = .error (.sync .emptyRange) ∧
      ∃ sid, ∀ i, (sc sid).g.parties.contains i = true → ((sc sid).dests 0 i).isEmpty = true) := by
  obtain ⟨eps', h1, -⟩ := extendOne_nodes (tag := tag) (sc []).g exts f (hl []) (ok []).keys (hf _)
  unfold CheckWithExtensions at h
  rw [heps [], h1] at h
  obtain ⟨sid, r, hr, ho⟩ := h
  obtain ⟨eps2, h2, h3⟩ := extendOne_nodes (tag := tag) (sc sid).g exts f (hl sid) (ok sid).keys (hf _)
  rw [← heps, heps [], h1] at h2
  cases h2
  rw [h3] at hr
  have dv := (md sid).deviation
  have hr' : RunSync ((sc sid).g.extended tag (onlyAt t exts)).sid (((sc sid).g.extended tag (onlyAt t exts)).nodes (l ++ [t])) r := by
    have : ((sc sid).g.extended tag (onlyAt t exts)).sid = sid := hsid sid
    rw [this]
    exact hr
  rcases dv.reports ((ok sid).extended tag) (hl sid) hr' with ⟨reports, n, rfl, hn, -, hb, hfin⟩ | ⟨rfl, he⟩
  · left
    rw [ho]
    simp only
    refine (C63_check (P := extend P (fun r => some (tag r))) t reports shared described).2 ⟨?_, ?_⟩
    · have ht : reports.contains t = true := by rw [hb.1]; exact (md sid).party
      obtain ⟨rep, hrep⟩ := BMap.contains_iff.1 ht
      exact ⟨rep, hrep, ((hb.2 t rep hrep).2 rfl).1⟩
    · intro i rep hi hrep
      obtain ⟨-, ev, h4, h5, h6⟩ := (hb.2 i rep hrep).1 hi
      refine ⟨ev, h6, hd ev h4, ?_⟩
      rw [C40_evidence]
      obtain ⟨rng, s₀, h7, h8⟩ := hn.report (hfin i rep hi hrep)
      have h9 : ((sc sid).g.extended tag (onlyAt t exts)).ep i = extendEntry (fun r => some (tag r)) ((sc sid).g.ep i) (fun _ => none) := by
        simp only [Group.extended, onlyAt, if_neg hi]
      rw [h9, Lift.new0] at h7
      cases h10 : Session.new rng ((sc sid).g.extended tag (onlyAt t exts)).sid
          (((sc sid).g.extended tag (onlyAt t exts)).signer i) ((sc sid).g.ep i) with
      | error e => rw [h10] at h7; cases h7
      | ok s₁ =>
        rw [h10] at h7
        cases h7
        obtain ⟨y, h11, h12⟩ := Lift.reach h8
        cases y with
        | running s a => cases h12
        | done r =>
          cases r with
          | error e => cases h12
          | ok rep' =>
            cases h12
            refine hv sid i rng s₁ rep' ev ?_ h11 ?_ h4 h5
            · refine Eq.trans ?_ h10
              simp only [Group.extended, hsid]
            · have := h6 t
              rw [if_pos rfl] at this
              exact this
  · exact Or.inr ⟨ho, sid, he⟩

/-- **C63.**  `check_evidence_with_extensions` returns. -/
theorem C63_detects_returns (sc : Scheme P) (ok : sc.Ok) {t : sp.Id} {K : Nat}
    {ch : Charge sp} {inv : Nat → P.Rd → Prop} {exts : Tag → Option (Ext P)} (md : Misdirects sc tag exts t K ch inv) (rng : sp.Rng)
    {l : List sp.Id} (hl : sc.g.Enum (l ++ [t])) {f : ExtEntry P Tag → ExtEntry P Tag}
    (hf : ∀ ep, f ⟨ep, fun _ => none⟩ = ⟨ep, exts⟩) (shared : P.Shared) (described : Evidence sp → Bool) :
    ∃ o, CheckWithExtensions tag (sc.g.nodes (l ++ [t])) shared f described o := by
  obtain ⟨eps', h1, h2⟩ := extendOne_nodes (tag := tag) sc.g exts f hl ok.keys (hf _)
  unfold CheckWithExtensions
  rw [h1]
  simp only
  rw [h2]
  obtain ⟨r, hr⟩ := C63_sync_returns (ok.extended tag) md.deviation rng hl
  exact ⟨_, sc.g.sid, r, hr, rfl⟩

/-- **C63.**  If the extensions change nothing (there are none), `check_evidence_with_extensions` fails: some party reports no
error, unless there is one party only. -/
theorem C63_honest (sc : Bytes → Scheme P) (ok : ∀ sid, (sc sid).Ok) (hsid : ∀ sid, (sc sid).g.sid = sid) {t i : sp.Id} {l : List sp.Id}
    {eps : List (sp.Signer × EntryPoint P)} (rng : sp.Rng)
    (hl : ∀ sid, (sc sid).g.Enum (i :: l ++ [t])) (heps : ∀ sid, eps = (sc sid).g.nodes (i :: l ++ [t]))
    {shared : P.Shared} {described : Evidence sp → Bool} {o : Except (MisErr sp) Unit}
    (h : CheckWithExtensions tag eps shared id described o) :
    (∃ j, o = .error (.noErrors j)) ∨ o = .error (.sync .emptyRange) := by
  obtain ⟨eps', h1, -⟩ := extendOne_nodes (tag := tag) (sc []).g (fun _ => none) id (hl []) (ok []).keys rfl
  unfold CheckWithExtensions at h
  rw [heps [], h1] at h
  obtain ⟨sid, r, hr, ho⟩ := h
  obtain ⟨eps2, h2, h3⟩ := extendOne_nodes (tag := tag) (sc sid).g (fun _ => none) id (hl sid) (ok sid).keys rfl
  rw [← heps, heps [], h1] at h2
  cases h2
  rw [h3] at hr
  have hg : (sc sid).g.extended tag (onlyAt t (fun _ => none)) = ((sc sid).extended tag).g := by
    have : (onlyAt t (fun _ => none) : sp.Id → Tag → Option (Ext P)) = fun _ _ => none := by
      funext j
      simp [onlyAt]
    rw [this]
    rfl
  rw [hg] at hr
  have hr' : RunSync ((sc sid).extended tag).g.sid (((sc sid).extended tag).g.nodes (i :: l ++ [t])) r := by
    have : ((sc sid).extended tag).g.sid = sid := hsid sid
    rw [this]
    exact hr
  rcases C53_outcome ((ok sid).extended tag) rng (hl sid) hr' with ⟨reports, rfl, hkeys, G, -, hrep⟩ | ⟨rfl, -⟩
  · left
    rw [ho]
    simp only
    have hnd := (hl sid).1
    have hit : i ≠ t := by
      rintro rfl
      simp at hnd
    have get : ∀ j, j ∈ i :: l ++ [t] → ∃ rep, reports.get? j = some rep ∧ rep.provable.isEmpty = true := by
      intro j hj
      have : reports.contains j = true := by rw [hkeys]; exact ((hl sid).2 j).1 hj
      obtain ⟨rep, hr⟩ := BMap.contains_iff.1 this
      exact ⟨rep, hr, (hrep j rep hr).1⟩
    obtain ⟨rt, ht1, ht2⟩ := get t (by simp)
    obtain ⟨ri, hi1, hi2⟩ := get i (by simp)
    cases hc : checkEvidence (P := extend P (fun r => some (tag r))) t reports shared described with
    | ok u =>
      exfalso
      obtain ⟨-, h4⟩ := (C63_check (P := extend P (fun r => some (tag r))) t reports shared described).1 hc
      obtain ⟨ev, h5, -⟩ := h4 i ri hit hi1
      have := h5 t
      rw [if_pos rfl, BMap.isEmpty_iff.1 hi2] at this
      cases this
    | error e =>
      unfold checkEvidence at hc
      rw [ht1] at hc
      simp only [ht2, Bool.true_eq_false, if_false] at hc
      obtain ⟨s, ⟨j, rep⟩, hm, he⟩ := foldE_error hc
      have hm := BMap.mem_toList.1 hm
      rw [BMap.get?_erase] at hm
      by_cases hj : j = t
      · rw [if_pos hj] at hm; cases hm
      · rw [if_neg hj] at hm
        simp only [checkReport, (hrep j rep hm).1, if_true, Except.error.injEq] at he
        exact ⟨j, by rw [he]⟩
  · exact Or.inr ho

end Manul
