import Verif.Lemmas.Scenario

/-!
# Properties of the round accumulator: C04, C06, C09, C14
-/

namespace Manul

variable {sp : SP} {P : Proto sp}

/-! ## C04 -/

/-- C04: a recorded payload is never replaced or dropped. -/
theorem C04_payload_permanent {s : Session P} {a b : Accum P} {ops : List (AccOp P)} (h : Hist s a ops b)
    {x : sp.Id} {v : Option P.Payload} (hv : a.payloads.get? x = some v) : b.payloads.get? x = some v := by
  refine hist_inv (I := fun l => l.payload = some v) ?_ h x hv
  intro l op l' hl ha
  rcases applyLoc_cases ha with ⟨m, o, -, hp⟩ | ⟨p, -, hn, -, -⟩ | ⟨p, -, -, rfl⟩
  · cases hp <;> exact hl
  · simp [hl] at hn
  · exact hl

/-- C04: recorded evidence is never replaced or dropped. -/
theorem C04_evidence_permanent {s : Session P} {a b : Accum P} {ops : List (AccOp P)} (h : Hist s a ops b)
    {x : sp.Id} {v : Evidence sp} (hv : a.provable.get? x = some v) : b.provable.get? x = some v := by
  refine hist_inv (I := fun l => l.provable = some v) ?_ h x hv
  intro l op l' hl ha
  rcases applyLoc_cases ha with ⟨m, o, -, hp⟩ | ⟨p, -, -, -, hadd⟩ | ⟨p, -, -, rfl⟩
  · cases hp <;> exact hl
  · cases hadd with
    | payload _ => exact hl
    | provable hn _ => simp [hl] at hn
    | unprovable _ => exact hl
  · exact hl

/-- C04: a recorded unprovable error is never dropped (it may be replaced by another one, see
`C04_error_replaced_violation`). -/
theorem C04_error_never_dropped_partial {s : Session P} {a b : Accum P} {ops : List (AccOp P)} (h : Hist s a ops b)
    {x : sp.Id} {v : RErr} (hv : a.unprovable.get? x = some v) : ∃ v', b.unprovable.get? x = some v' := by
  refine hist_inv (I := fun l => ∃ v', l.unprovable = some v') ?_ h x ⟨v, hv⟩
  intro l op l' hl ha
  rcases applyLoc_cases ha with ⟨m, o, -, hp⟩ | ⟨p, -, -, -, hadd⟩ | ⟨p, -, -, rfl⟩
  · cases hp with
    | ignored _ => exact hl
    | refused _ _ => exact ⟨_, rfl⟩
    | process _ _ _ _ _ => exact hl
    | keep _ _ _ _ _ _ _ => exact hl
  · cases hadd with
    | payload _ => exact hl
    | provable _ _ => exact hl
    | unprovable _ => exact ⟨_, rfl⟩
  · exact hl

/-- C04: when messages are processed one at a time, a recorded unprovable error is never replaced either.  (Missing
from the full claim: histories in which the processing of several messages overlaps.) -/
theorem C04_error_permanent_partial {s : Session P} {a b : Accum P} {l : List (sp.Id × Message sp)}
    (h : Deliveries s a l b) {x : sp.Id} {v : RErr} (hv : a.unprovable.get? x = some v) :
    b.unprovable.get? x = some v := by
  unfold Deliveries at h
  induction l generalizing a with
  | nil =>
    simp only [foldE, Except.ok.injEq] at h
    exact h ▸ hv
  | cons y l ih =>
    simp only [foldE] at h
    cases hd : deliver s a y.1 y.2 with
    | error e => simp [hd] at h
    | ok a1 =>
      simp only [hd] at h
      refine ih h ?_
      rw [deliver_loc] at hd
      cases hl : Loc.deliver s y.1 y.2 (a.loc y.1) with
      | error e => simp [hl, liftLoc] at hd
      | ok l1 =>
        simp only [hl, liftLoc, Except.ok.injEq] at hd
        subst hd
        by_cases hxy : x = y.1
        · subst hxy
          have hb : (a.loc y.1).banned = true := by simp [Loc.banned, Accum.loc, hv]
          have : Loc.pre s y.1 y.2 (a.loc y.1) = .ok (a.loc y.1, .error .banned) := by simp [Loc.pre, hb]
          simp only [Loc.deliver, this, PreOutcome.ok?, Except.ok.injEq] at hl
          subst hl
          rw [setLoc_loc]
          exact hv
        · have := Accum.loc_setLoc_other a hxy l1
          have h2 : ((a.setLoc y.1 l1).loc x).unprovable = some v := by rw [this]; exact hv
          exact h2

/-- Adding a processed message of `x` needs `x` to be outstanding, and nothing makes it outstanding again. -/
theorem adds_le_one {s : Session P} {x : sp.Id} {ops : List (AccOp P)} {l l' : Loc P}
    (hops : ∀ op ∈ ops, op.party = x)
    (h : foldE (fun l op => AccOp.applyLoc s l op) l ops = .ok l') :
    (ops.filter (AccOp.addsFor x)).length ≤ 1 ∧
      (l.notSent = false → (ops.filter (AccOp.addsFor x)).length = 0) := by
  induction ops generalizing l with
  | nil => simp
  | cons op ops ih =>
    simp only [foldE] at h
    cases ha : AccOp.applyLoc s l op with
    | error e => simp [ha] at h
    | ok l1 =>
      simp only [ha] at h
      obtain ⟨i1, i2⟩ := ih (fun o ho => hops o (List.mem_cons_of_mem _ ho)) h
      have hop := hops op (List.mem_cons_self ..)
      rcases applyLoc_cases ha with ⟨m, o, he, hp⟩ | ⟨p, rfl, hn, hs, hadd⟩ | ⟨p, rfl, -, rfl⟩
      · have hf : AccOp.addsFor x op = false := by rw [he]; rfl
        have hns : l1.notSent = l.notSent := by cases hp <;> rfl
        simp only [List.filter_cons, hf, Bool.false_eq_true, if_false]
        exact ⟨i1, fun hl => i2 (hns.trans hl)⟩
      · have hf : AccOp.addsFor x (.add p : AccOp P) = true := by simpa [AccOp.addsFor, AccOp.party] using hop
        have hns : l1.notSent = false := by cases hadd <;> rfl
        simp only [List.filter_cons, hf, if_true, List.length_cons]
        have := i2 hns
        exact ⟨by omega, fun hl => by simp [hl] at hs⟩
      · have hf : AccOp.addsFor x (.art p : AccOp P) = false := rfl
        simp only [List.filter_cons, hf, Bool.false_eq_true, if_false]
        exact ⟨i1, i2⟩

/-- C04: in a round, at most one processed message of each party is ever added, whatever the calls are. -/
theorem C04_one_message_counts {s : Session P} {b : Accum P} {ops : List (AccOp P)} (h : Hist s s.makeAccum ops b)
    (x : sp.Id) : (ops.filter (AccOp.addsFor x)).length ≤ 1 := by
  have h1 := (hist_loc.1 h).2 x
  have h2 := (adds_le_one (x := x) (by intro op ho; simpa using (List.mem_filter.1 ho).2) h1).1
  have h3 : (ops.filter (fun op => op.party = x)).filter (AccOp.addsFor x) = ops.filter (AccOp.addsFor x) := by
    rw [List.filter_filter]
    apply List.filter_congr
    intro op _
    cases op with
    | add p => by_cases hp : p.message.sender = x <;> simp [AccOp.addsFor, AccOp.party, hp]
    | _ => simp [AccOp.addsFor]
  rw [h3] at h2
  exact h2

/-- C04: no party has both a payload and evidence against it. -/
theorem C04_payload_or_evidence {s : Session P} {a : Accum P} (h : AccReach s a) (x : sp.Id) :
    ¬ ((∃ v, a.payloads.get? x = some v) ∧ ∃ e, a.provable.get? x = some e) := by
  rintro ⟨⟨v, hv⟩, e, he⟩
  have hi := (reach_linv h x).2
  have := (hi.payload (by simp [Accum.loc, hv])).2.2
  simp [Accum.loc, he] at this

/-- The ways the full C04 fails: the error of a party is replaced when the processing of its messages overlaps (message of
party 2 preprocessed, its duplicate refused, then the first one's processing fails). -/
def c04Script : Except LErr (Session (demo false 3).wrap × Accum (demo false 3).wrap × Accum (demo false 3).wrap) :=
  match demoSession false 3 [1, 2, 3] 1, Sent.message ⟨2, 2, [9], RoundId.new 1, 1, some [67], none, some [7]⟩ with
  | .ok s, .ok (_, m) =>
    match s.preprocess s.makeAccum (2 : U8) m with
    | .ok (a1, .toProcess vm) =>
      match s.preprocess a1 (2 : U8) m with
      | .ok (a2, _) =>
        match s.addProcessed a2 (s.process vm) with
        | .ok a3 => .ok (s, a2, a3)
        | .error e => .error e
      | .error e => .error e
    | _ => .error (.user 0)
  | _, _ => .error (.user 0)

theorem c04_eval : onOk c04Script (fun r => (r.2.1.unprovable.get? (2 : U8) == some .alreadyProcessing) &&
    (r.2.2.unprovable.get? (2 : U8) == some (.user 0))) = true := by decide +kernel

/-- C04 as stated fails: a call replaces the error recorded for a party. -/
theorem C04_error_replaced_violation :
    ∃ (s : Session (demo false 3).wrap) (a b : Accum (demo false 3).wrap) (op : AccOp (demo false 3).wrap),
      AccReach s a ∧ Hist s a [op] b ∧ a.unprovable.get? (2 : U8) = some .alreadyProcessing ∧
        b.unprovable.get? (2 : U8) = some (.user 0) := by
  obtain ⟨⟨s, a2, a3⟩, h, hk⟩ := onOk_iff.1 c04_eval
  simp only [Bool.and_eq_true, beq_iff_eq] at hk
  unfold c04Script at h
  cases hs : demoSession false 3 [1, 2, 3] 1 with
  | error e => simp [hs] at h
  | ok s' =>
    cases hm : Sent.message ⟨2, 2, [9], RoundId.new 1, 1, some [67], none, some [7]⟩ with
    | error e => simp [hs, hm] at h
    | ok r =>
      obtain ⟨x, m⟩ := r
      simp only [hs, hm] at h
      cases h1 : s'.preprocess s'.makeAccum (2 : U8) m with
      | error e => simp [h1] at h
      | ok r1 =>
        obtain ⟨a1, o1⟩ := r1
        cases o1 with
        | cached => simp [h1] at h
        | error e => simp [h1] at h
        | toProcess vm =>
          simp only [h1] at h
          cases h2 : s'.preprocess a1 (2 : U8) m with
          | error e => simp [h2] at h
          | ok r2 =>
            obtain ⟨a2', o2⟩ := r2
            simp only [h2] at h
            cases h3 : s'.addProcessed a2' (s'.process vm) with
            | error e => simp [h3] at h
            | ok a3' =>
              simp only [h3, Except.ok.injEq, Prod.mk.injEq] at h
              obtain ⟨rfl, rfl, rfl⟩ := h
              refine ⟨s', a2', a3', .add (s'.process vm), ⟨[.pre (2 : U8) m, .pre (2 : U8) m], ?_⟩, ?_, hk.1, hk.2⟩
              · simp [Hist, foldE, AccOp.apply, h1, h2]
              · simp [Hist, foldE, AccOp.apply, h3]

/-- C04 as stated fails: after a valid message and a duplicate, a party has both a payload and an (unprovable) error. -/
theorem C04_payload_and_error_violation :
    ∃ (s : Session (demo false 3).wrap) (a : Accum (demo false 3).wrap) (v : Option Nat),
      AccReach s a ∧ a.payloads.get? (2 : U8) = some v ∧ a.unprovable.get? (2 : U8) = some .alreadyProcessing := by
  have h : onOk (demoDeliver false 3 [⟨2, 2, [9], RoundId.new 1, 1, some [5], none, some [7]⟩,
      ⟨2, 2, [9], RoundId.new 1, 1, some [5], none, some [7]⟩])
      (fun r => (r.2.payloads.get? (2 : U8) == some (some (12 : Nat) : Option (demo false 3).wrap.Payload)) &&
        (r.2.unprovable.get? (2 : U8) == some .alreadyProcessing)) = true := by decide +kernel
  obtain ⟨s, a, -, -, -, hr, hk⟩ := onOk_demo h
  simp only [Bool.and_eq_true, beq_iff_eq] at hk
  exact ⟨s, a, some 12, hr, hk.1, hk.2⟩

/-! ## C06 -/

/-- Every expected party has a recorded payload. -/
def Complete (a : Accum P) : Prop := ∀ x, a.expecting.contains x = true → ∃ v, a.payloads.get? x = some v

/-- No processed message can be added any more. -/
def Closed (s : Session P) (a : Accum P) : Prop := ∀ p, ∃ e, s.addProcessed a p = .error e

theorem canFinalize_yes {a : Accum P} : a.canFinalize = .yes ↔ Complete a := by
  have h : (a.expecting.elems.all (fun k => a.payloads.contains k)) = true ↔ Complete a := by
    simp only [List.all_eq_true, BSet.mem_elems, BMap.contains_iff, Complete]
  unfold Accum.canFinalize
  rw [← h]
  split
  · rename_i hc; simp [hc]
  · rename_i hc
    simp only [hc, Bool.false_eq_true, iff_false]
    split <;> simp

theorem notSent_empty {a : Accum P} : a.notSent.isEmpty = true ↔ ∀ x, a.notSent.contains x = false := by
  rw [BMap.isEmpty_iff]
  constructor
  · intro h x; exact BMap.contains_eq_false.2 (h x)
  · intro h x; exact BMap.contains_eq_false.1 (h x)

/-- A payload can be added for an outstanding party of a reachable accumulator. -/
theorem add_possible {s : Session P} {a : Accum P} (hr : AccReach s a) {x : sp.Id} (hx : a.notSent.contains x = true)
    (m : VerifiedMessage sp) (hm : m.sender = x) (v : Option P.Payload) :
    ∃ b, s.addProcessed a ⟨m, .ok v⟩ = .ok b := by
  subst hm
  have hi := (reach_linv hr m.sender).2.of_notSent (l := a.loc m.sender) hx
  have hx' : (a.loc m.sender).notSent = true := hx
  unfold Session.addProcessed
  rw [addProcessed_loc]
  simp [Loc.add, hi.1, hx', liftLoc]

theorem closed_iff {s : Session P} {a : Accum P} (hr : AccReach s a) : Closed s a ↔ ∀ x, a.notSent.contains x = false := by
  constructor
  · intro h x
    by_contra hx
    have hx : a.notSent.contains x = true := by simpa using hx
    have part : ∀ k, SignedPart k := fun k => ⟨[], ⟨[], RoundId.new 0⟩, ⟨none⟩⟩
    obtain ⟨b, hb⟩ := add_possible hr hx ⟨x, ⟨[], RoundId.new 0⟩, part _, part _, part _⟩ rfl none
    obtain ⟨e, he⟩ := h ⟨⟨x, ⟨[], RoundId.new 0⟩, part _, part _, part _⟩, .ok none⟩
    rw [hb] at he
    simp at he
  · intro h p
    unfold Session.addProcessed
    rw [addProcessed_loc]
    have hx : (a.loc p.message.sender).notSent = false := h _
    unfold Loc.add
    by_cases hp : (a.loc p.message.sender).payload.isSome = true
    · exact ⟨.dupPayload, by simp [hp, liftLoc]⟩
    · exact ⟨.unexpectedSender, by simp [hp, hx, liftLoc]⟩

/-- C06: `Yes` is answered exactly if every expected party has a recorded payload, `Never` exactly if no further message can be
added although somebody expected has no payload, `NotYet` otherwise. -/
theorem C06_characterisation {s : Session P} {a : Accum P} (hr : AccReach s a) :
    (a.canFinalize = .yes ↔ Complete a) ∧ (a.canFinalize = .never ↔ Closed s a ∧ ¬ Complete a) ∧
      (a.canFinalize = .notYet ↔ ¬ Closed s a) := by
  refine ⟨canFinalize_yes, ?_⟩
  have hce : Complete a → Closed s a := by
    intro h
    rw [closed_iff hr]
    intro x
    by_contra hx
    have hx : a.notSent.contains x = true := by simpa using hx
    have hi := (reach_linv hr x).2
    obtain ⟨v, hv⟩ := h x (hi.notSent hx)
    have := (hi.payload (by simp [Accum.loc, hv])).2.1
    have hx' : (a.loc x).notSent = true := hx
    simp [hx'] at this
  by_cases hc : Complete a
  · have := canFinalize_yes.2 hc
    simp [this, hc, hce hc]
  · have hy : a.canFinalize ≠ .yes := fun h => hc (canFinalize_yes.1 h)
    have h0 : (a.expecting.elems.all (fun k => a.payloads.contains k)) = false := by
      by_contra hcc
      apply hy
      unfold Accum.canFinalize
      rw [if_pos (by simpa using hcc)]
    by_cases hcl : Closed s a
    · have he := notSent_empty.2 ((closed_iff hr).1 hcl)
      have : a.canFinalize = .never := by unfold Accum.canFinalize; simp [h0, he]
      simp [this, hc, hcl]
    · have he : a.notSent.isEmpty = false := by
        by_contra h
        exact hcl ((closed_iff hr).2 (notSent_empty.1 (by simpa using h)))
      have : a.canFinalize = .notYet := by unfold Accum.canFinalize; simp [h0, he]
      simp [this, hcl]

/-- C06: `Yes` is permanent. -/
theorem C06_yes_permanent {s : Session P} {a b : Accum P} {ops : List (AccOp P)} (h : Hist s a ops b)
    (hy : a.canFinalize = .yes) : b.canFinalize = .yes := by
  rw [canFinalize_yes] at *
  intro x hx
  rw [hist_expecting h] at hx
  obtain ⟨v, hv⟩ := hy x hx
  exact ⟨v, C04_payload_permanent h hv⟩

/-- C06: `Never` is permanent. -/
theorem C06_never_permanent {s : Session P} {a b : Accum P} {ops : List (AccOp P)} (hr : AccReach s a)
    (h : Hist s a ops b) (hn : a.canFinalize = .never) : b.canFinalize = .never := by
  have hrb : AccReach s b := by
    obtain ⟨ops0, h0⟩ := hr
    exact ⟨_, hist_append h0 h⟩
  rw [(C06_characterisation hr).2.1] at hn
  rw [(C06_characterisation hrb).2.1]
  obtain ⟨hcl, hnc⟩ := hn
  rw [closed_iff hr] at hcl
  have key : ∀ x, (b.loc x).notSent = false ∧ (b.loc x).payload = (a.loc x).payload := by
    intro x
    refine hist_inv (I := fun l => l.notSent = false ∧ l.payload = (a.loc x).payload) ?_ h x ⟨hcl x, rfl⟩
    intro l op l' hl ha
    rcases applyLoc_cases ha with ⟨m, o, -, hp⟩ | ⟨p, -, -, hs, -⟩ | ⟨p, -, -, rfl⟩
    · cases hp <;> exact hl
    · simp [hl.1] at hs
    · exact hl
  refine ⟨(closed_iff hrb).2 fun x => (key x).1, ?_⟩
  intro hc
  apply hnc
  intro x hx
  obtain ⟨v, hv⟩ := hc x (by rw [hist_expecting h]; exact hx)
  have := (key x).2
  simp only [Accum.loc, hv] at this
  exact ⟨v, this.symm⟩

/-- All three answers occur in reachable accumulators. -/
example : (∃ s a, AccReach (P := (demo false 3).wrap) s a ∧ a.canFinalize = .notYet) ∧
    (∃ s a, AccReach (P := (demo false 3).wrap) s a ∧ a.canFinalize = .yes) ∧
    (∃ s a, AccReach (P := (demo false 3).wrap) s a ∧ a.canFinalize = .never) := by
  have h1 : onOk (demoDeliver false 3 []) (fun r => r.2.canFinalize == .notYet) = true := by decide +kernel
  have h2 : onOk (demoDeliver false 3 [⟨2, 2, [9], RoundId.new 1, 1, some [5], none, some [7]⟩,
      ⟨3, 3, [9], RoundId.new 1, 1, some [5], none, some [7]⟩]) (fun r => r.2.canFinalize == .yes) = true := by decide +kernel
  have h3 : onOk (demoDeliver false 3 [⟨2, 2, [9], RoundId.new 1, 1, some [5], none, some [7]⟩,
      ⟨3, 3, [9], RoundId.new 1, 1, some [67], none, some [7]⟩]) (fun r => r.2.canFinalize == .never) = true := by
    decide +kernel
  obtain ⟨s1, a1, -, -, -, r1, k1⟩ := onOk_demo h1
  obtain ⟨s2, a2, -, -, -, r2, k2⟩ := onOk_demo h2
  obtain ⟨s3, a3, -, -, -, r3, k3⟩ := onOk_demo h3
  exact ⟨⟨s1, a1, r1, by simpa using k1⟩, ⟨s2, a2, r2, by simpa using k2⟩, ⟨s3, a3, r3, by simpa using k3⟩⟩

/-! ## C09 -/

/-- Everybody expected that has no payload is banned. -/
def AllMissingBanned (s : Session P) (a : Accum P) : Prop :=
  ∀ x, a.expecting.contains x = true → a.payloads.get? x = none → HasError s a x

/-- C09 as stated fails: all missing parties are banned, and still the answer is `NotYet` (party 2's only message had a wrong
signature, party 3's payload is there). -/
theorem C09_violation :
    ∃ (s : Session (demo false 3).wrap) (a : Accum (demo false 3).wrap),
      AccReach s a ∧ AllMissingBanned s a ∧ a.canFinalize = .notYet := by
  have h : onOk (demoDeliver false 3 [⟨2, 3, [9], RoundId.new 1, 1, some [5], none, some [7]⟩,
      ⟨3, 3, [9], RoundId.new 1, 1, some [5], none, some [7]⟩])
      (fun r => (r.2.canFinalize == .notYet) &&
        r.2.expecting.elems.all (fun x => r.2.payloads.contains x || r.2.unprovable.contains x)) = true := by
    decide +kernel
  obtain ⟨s, a, -, -, -, hr, hk⟩ := onOk_demo h
  simp only [Bool.and_eq_true, beq_iff_eq, List.all_eq_true, BSet.mem_elems, Bool.or_eq_true] at hk
  refine ⟨s, a, hr, ?_, hk.1⟩
  intro x hx hp
  rcases hk.2 x hx with h | h
  · obtain ⟨v, hv⟩ := BMap.contains_iff.1 h
    simp [hp] at hv
  · exact Or.inr (Or.inr (Or.inr (BMap.contains_iff.1 h)))

/-- C09, what happens instead: if somebody outstanding is left and everybody outstanding is banned, no sequence of deliveries
(to the sequential driver) ever gets the round out of `NotYet`. -/
theorem C09_hang {s : Session P} {a b : Accum P} {l : List (sp.Id × Message sp)} (hr : AccReach s a)
    (hout : ∃ x, a.notSent.contains x = true) (hban : ∀ x, a.notSent.contains x = true → HasError s a x)
    (h : Deliveries s a l b) : b.canFinalize = .notYet := by
  have key : ∀ (l : List (sp.Id × Message sp)) (a : Accum P), AccReach s a → (∃ x, a.notSent.contains x = true) →
      (∀ x, a.notSent.contains x = true → HasError s a x) → ∀ b, Deliveries s a l b →
      AccReach s b ∧ ∃ x, b.notSent.contains x = true := by
    intro l
    induction l with
    | nil =>
      intro a hr hout hban b h
      simp only [Deliveries, foldE, Except.ok.injEq] at h
      subst h
      exact ⟨hr, hout⟩
    | cons y l ih =>
      intro a hr hout hban b h
      simp only [Deliveries, foldE] at h
      cases hd : deliver s a y.1 y.2 with
      | error e => simp [hd] at h
      | ok a1 =>
        simp only [hd] at h
        obtain ⟨ops, ho, -⟩ := deliver_hist hd
        have hr1 : AccReach s a1 := by
          obtain ⟨ops0, h0⟩ := hr
          exact ⟨_, hist_append h0 ho⟩
        have hd' := hd
        rw [deliver_loc] at hd'
        cases hl : Loc.deliver s y.1 y.2 (a.loc y.1) with
        | error e => simp [hl, liftLoc] at hd'
        | ok l1 =>
          simp only [hl, liftLoc, Except.ok.injEq] at hd'
          have hsame : ∀ x, a1.notSent.contains x = true → a.notSent.contains x = true := by
            intro x hx
            by_contra hc
            have hc' : (a.loc x).notSent = false := by simpa [Accum.loc] using hc
            have : (a1.loc x).notSent = false := by
              refine hist_inv (I := fun l => l.notSent = false) ?_ ho x hc'
              intro l op l' hl ha
              rcases applyLoc_cases ha with ⟨m, o, -, hp⟩ | ⟨p, -, -, hs, -⟩ | ⟨p, -, -, rfl⟩
              · cases hp <;> exact hl
              · simp [hl] at hs
              · exact hl
            have hx' : (a1.loc x).notSent = true := hx
            simp [hx'] at this
          have hkeep : ∀ x, a.notSent.contains x = true → a1.notSent.contains x = true := by
            intro x hx
            by_cases hxy : x = y.1
            · subst hxy
              have hb := hasError_iff.2 (hban _ hx)
              have : deliver s a y.1 y.2 = .ok a := by
                unfold deliver Session.preprocess
                rw [if_pos hb]
                rfl
              rw [this] at hd
              simp only [Except.ok.injEq] at hd
              exact hd ▸ hx
            · have := Accum.loc_setLoc_other a hxy l1
              rw [hd'] at this
              have h2 : (a1.loc x).notSent = true := by rw [this]; exact hx
              exact h2
          refine ih a1 hr1 ?_ ?_ b h
          · obtain ⟨x, hx⟩ := hout
            exact ⟨x, hkeep x hx⟩
          · intro x hx
            have he := hban x (hsame x hx)
            rcases he with he | he | ⟨e, he⟩ | ⟨e, he⟩
            · exact Or.inl he
            · exact Or.inr (Or.inl he)
            · exact Or.inr (Or.inr (Or.inl ⟨e, C04_evidence_permanent ho he⟩))
            · exact Or.inr (Or.inr (Or.inr (C04_error_never_dropped_partial ho he)))
  obtain ⟨hrb, x, hx⟩ := key l a hr hout hban b h
  rw [(C06_characterisation hrb).2.2, closed_iff hrb]
  intro hcl
  rw [hcl x] at hx
  simp at hx

/-- C09, the part that holds: if every expected party without a payload has had its message processed (and refused by the
round), the answer is `Never`.  (Missing: parties banned without a processed message.) -/
theorem C09_processed_partial {s : Session P} {a : Accum P} (hr : AccReach s a)
    (h : ∀ x, a.expecting.contains x = true → a.payloads.get? x = none → a.notSent.contains x = false)
    (hm : ∃ x, a.expecting.contains x = true ∧ a.payloads.get? x = none) : a.canFinalize = .never := by
  rw [(C06_characterisation hr).2.1, closed_iff hr]
  constructor
  · intro x
    by_contra hx
    have hx : a.notSent.contains x = true := by simpa using hx
    have hi := (reach_linv hr x).2
    have hp := (hi.of_notSent (l := a.loc x) hx).1
    rw [h x (hi.notSent hx) hp] at hx
    simp at hx
  · intro hc
    obtain ⟨x, h1, h2⟩ := hm
    obtain ⟨v, hv⟩ := hc x h1
    simp [h2] at hv

/-- C09, exactly: if everybody missing is banned, the round is left as required if and only if a message of each of them has been
processed; if not, the round is left by no sequence of deliveries. -/
theorem C09_exact {s : Session P} {a : Accum P} (hr : AccReach s a) (hb : AllMissingBanned s a)
    (hm : ∃ x, a.expecting.contains x = true ∧ a.payloads.get? x = none) :
    (a.canFinalize = .never ↔ ∀ x, a.expecting.contains x = true → a.payloads.get? x = none → a.notSent.contains x = false) ∧
      (a.canFinalize ≠ .never → ∀ l b, Deliveries s a l b → b.canFinalize = .notYet) := by
  have h1 : a.canFinalize = .never ↔
      ∀ x, a.expecting.contains x = true → a.payloads.get? x = none → a.notSent.contains x = false := by
    refine ⟨fun h x _ _ => ?_, fun h => C09_processed_partial hr h hm⟩
    exact (closed_iff hr).1 ((C06_characterisation hr).2.1.1 h).1 x
  refine ⟨h1, fun h l b hd => C09_hang hr ?_ ?_ hd⟩
  · by_contra hn
    refine h (h1.2 fun x _ _ => ?_)
    rw [Bool.eq_false_iff]
    exact fun hx => hn ⟨x, hx⟩
  · intro x hx
    have hi := (reach_linv hr x).2
    exact hb x (hi.notSent hx) (hi.of_notSent (l := a.loc x) hx).1

/-! ## C14 -/

/-- C14: messages of distinct senders can be delivered in any order, with the same resulting accumulator (payloads, recorded
messages, cache, errors, outstanding parties); if one order is aborted by a local error, so is every other.  The messages need
not be for the current round. -/
theorem C14_order_independent {s : Session P} {a b : Accum P} {l l' : List (sp.Id × Message sp)} (hp : l.Perm l')
    (hd : (l.map Prod.fst).Nodup) (h : Deliveries s a l b) : Deliveries s a l' b := by
  unfold Deliveries at *
  have hl := fun (l : List (sp.Id × Message sp)) =>
    fold_loc (P := P) (fun x : sp.Id × Message sp => x.1) (fun a x => deliver s a x.1 x.2)
      (fun l x => Loc.deliver s x.1 x.2 l) (fun a x => deliver_loc s a x.1 x.2) l a b
  rw [hl] at h ⊢
  refine ⟨h.1, fun x => ?_⟩
  have hfp : (l.filter (fun y => y.1 = x)).Perm (l'.filter (fun y => y.1 = x)) := hp.filter _
  have hlen : (l.filter (fun y => y.1 = x)).length ≤ 1 := by
    clear hfp h hl hp
    induction l with
    | nil => simp
    | cons y l ih =>
      simp only [List.map_cons, List.nodup_cons] at hd
      by_cases hy : y.1 = x
      · have : l.filter (fun y => y.1 = x) = [] := by
          rw [List.filter_eq_nil_iff]
          intro z hz hzx
          have hzx : z.1 = x := by simpa using hzx
          exact hd.1 (List.mem_map.2 ⟨z, hz, hzx.trans hy.symm⟩)
        simp [hy, this]
      · simpa [hy] using ih hd.2
  have heq : l.filter (fun y => y.1 = x) = l'.filter (fun y => y.1 = x) := by
    generalize l.filter (fun y => y.1 = x) = u at hfp hlen
    generalize l'.filter (fun y => y.1 = x) = v at hfp
    match u, hfp, hlen with
    | [], hfp, _ => exact (List.nil_perm.1 hfp).symm
    | [y], hfp, _ => exact List.singleton_perm.1 hfp
    | y :: z :: r, _, hlen => simp at hlen
  rw [← heq]
  exact h.2 x

/-- The hypotheses of C14 are met by two different orders of two messages. -/
example : ∃ (s : Session (demo false 3).wrap) (b : Accum (demo false 3).wrap) (l l' : List (U8 × Message toy)),
    l.Perm l' ∧ l ≠ l' ∧ (l.map Prod.fst).Nodup ∧ Deliveries s s.makeAccum l b := by
  have h : onOk (demoDeliver false 3 [⟨2, 2, [9], RoundId.new 1, 1, some [5], none, some [7]⟩,
      ⟨3, 3, [9], RoundId.new 1, 1, some [5], none, some [7]⟩]) (fun _ => true) = true := by decide +kernel
  obtain ⟨⟨s, a⟩, h1, -⟩ := onOk_iff.1 h
  unfold demoDeliver at h1
  cases hs : demoSession false 3 [1, 2, 3] 1 with
  | error e => simp [hs] at h1
  | ok s' =>
    have hm : ∃ m m', mapE Sent.message [⟨2, 2, [9], RoundId.new 1, 1, some [5], none, some [7]⟩,
        ⟨3, 3, [9], RoundId.new 1, 1, some [5], none, some [7]⟩] = .ok [((2 : U8), m), ((3 : U8), m')] := ⟨_, _, rfl⟩
    obtain ⟨m, m', hm⟩ := hm
    cases hf : foldE (fun a x => deliver s' a x.1 x.2) s'.makeAccum [((2 : U8), m), ((3 : U8), m')] with
    | error e => simp [hs, hm, hf] at h1
    | ok a' =>
      refine ⟨s', a', [((2 : U8), m), ((3 : U8), m')], [((3 : U8), m'), ((2 : U8), m)], List.Perm.swap .., ?_, ?_, hf⟩
      · intro he
        simp only [List.cons.injEq, Prod.mk.injEq] at he
        exact absurd he.1.1 (by decide)
      · simp

end Manul
