import Verif.Spec.Stall
import Verif.Lemmas.ByzantineInv
import Verif.Props.Transcript

/-! # Networks in which the parties following the protocol can do nothing more by themselves -/

namespace Manul

variable {sp : SP} {P : Proto sp}

/-- The states of a party in the network are states of its session. -/
theorem ByzReach.origin {g : Group P} {H : sp.Id → Prop} {adv : Packet sp → Prop} {n : Net P} (h : ByzReach g H adv n) :
    ∀ i st, n.node i = some st → (∃ e, st = .done (.error e)) ∨
      ∃ rng s₀, Session.new rng g.sid (g.signer i) (g.ep i) = .ok s₀ ∧ Reach s₀ st := by
  have hput : ∀ {m : Net P} {j : sp.Id} {st' : RunState P} {out : List (Message sp)},
      (∀ i st, m.node i = some st → (∃ e, st = .done (.error e)) ∨
        ∃ rng s₀, Session.new rng g.sid (g.signer i) (g.ep i) = .ok s₀ ∧ Reach s₀ st) →
      ((∃ e, st' = .done (.error e)) ∨ ∃ rng s₀, Session.new rng g.sid (g.signer j) (g.ep j) = .ok s₀ ∧ Reach s₀ st') →
      ∀ i st, (m.put j st' out).node i = some st → (∃ e, st = .done (.error e)) ∨
        ∃ rng s₀, Session.new rng g.sid (g.signer i) (g.ep i) = .ok s₀ ∧ Reach s₀ st := by
    intro m j st' out hm hj i st hi
    by_cases hij : i = j
    · subst hij
      simp only [Net.put, Function.update_self, Option.some.injEq] at hi
      subst hi
      exact hj
    · simp only [Net.put, Function.update_of_ne hij] at hi
      exact hm i st hi
  induction h with
  | init => intro i st hi; simp [Net.init] at hi
  | step _ hs ih =>
    cases hs with
    | @start i rng rng' hi hn =>
      apply hput ih
      unfold Group.startNode
      cases hn : Session.new rng g.sid (g.signer i) (g.ep i) with
      | error e => exact Or.inl ⟨_, rfl⟩
      | ok s => exact Or.inr ⟨rng, s, hn, .start rng'⟩
    | @tick i st st' rng out hn hs =>
      apply hput ih
      rcases ih i st hn with ⟨r, rfl⟩ | ⟨rng0, s₀, h1, h2⟩
      · simp [Manul.step] at hs
      · exact Or.inr ⟨rng0, s₀, h1, .step h2 hs⟩
    | @deliver st st' p w w' out hw hn hs =>
      refine hput (m := ⟨_, _⟩) ih ?_
      rcases ih p.dest st hn with ⟨r, rfl⟩ | ⟨rng0, s₀, h1, h2⟩
      · simp [Manul.step] at hs
      · exact Or.inr ⟨rng0, s₀, h1, .step h2 hs⟩
    | inject _ _ => exact ih

/-- Somebody is accused if the session is terminated and nothing is missing. -/
theorem terminate_reason {s : Session P} {a : Accum P} {rep : Report P} (ht : s.terminateDueToErrors a = .ok rep) (hr : AccReach s a)
    (hy : a.canFinalize ≠ .yes) (hm : rep.missing = BMap.empty) :
    ∃ x, rep.provable.contains x = true ∨ rep.unprovable.contains x = true := by
  obtain ⟨t, hu, h1, h2, h3⟩ := terminate_report ht
  have hns : a.notSent.isEmpty = true := by
    by_contra hc
    rw [h3, hu.missing, if_neg hc] at hm
    have := congrArg (fun m => m.contains s.roundId) hm
    simp at this
  have hmiss : ∃ x, a.expecting.contains x = true ∧ a.payloads.contains x = false := by
    by_contra hc
    apply hy
    unfold Accum.canFinalize
    rw [if_pos]
    rw [List.all_eq_true]
    intro x hx
    by_contra hcc
    exact hc ⟨x, BSet.mem_elems.1 hx, by simpa using hcc⟩
  obtain ⟨x, hx, hp⟩ := hmiss
  have hl := (reach_linv hr x).2
  rw [hx] at hl
  have hn : (a.loc x).notSent = false := by
    rw [BMap.isEmpty_iff_contains] at hns
    exact hns x
  refine ⟨x, ?_⟩
  rcases hl.heard rfl hn with g | g
  · rw [contains_isSome] at hp
    rw [show (a.loc x).payload.isSome = false from hp] at g
    simp at g
  · simp only [Loc.banned, Bool.or_eq_true] at g
    rw [h1, h2, contains_isSome, contains_isSome, hu.provable, hu.unprovable]
    rcases g with g | g
    · left
      obtain ⟨y, hy⟩ := Option.isSome_iff_exists.1 g
      rw [show a.provable.get? x = some y from hy]
      rfl
    · right
      obtain ⟨y, hy⟩ := Option.isSome_iff_exists.1 g
      rw [show a.unprovable.get? x = some y from hy]
      rfl

/-- A report in which nothing is missing has a result or an accusation. -/
theorem report_reason {s₀ : Session P} {rep : Report P} (h : Reach s₀ (.done (.ok rep))) (hm : rep.missing = BMap.empty) :
    (∃ v, rep.outcome = .result v) ∨ ∃ x, rep.provable.contains x = true ∨ rep.unprovable.contains x = true := by
  obtain ⟨trail, s, a, k, he⟩ := reach_done h
  have hout := (ends_outcome he).1
  have key : s.terminateDueToErrors a = .ok rep → InRound s₀ trail s a → a.canFinalize ≠ .yes →
      ∃ x, rep.provable.contains x = true ∨ rep.unprovable.contains x = true := by
    rintro ht ⟨cached, rng, l, hv, hseq⟩ hy
    exact terminate_reason ht (seqRound_reach hseq) hy hm
  cases he with
  | @result rng res hin hy hf hi hres => exact Or.inl ⟨res, (hout res).2 rfl⟩
  | errors hin hy ht => exact Or.inr (key ht hin (by rw [hy]; simp))
  | cancelled hin hy ht => exact Or.inr (key ht hin (by rw [hy]; simp))

namespace Byz

variable {z : Byz P}

/-- A party that is stuck waits for somebody that does not follow the protocol, or for one that has entered fewer positions. -/
theorem NetInv.waits (ok : z.Ok) {G : History P} {e : sp.Id → Nat} {net : Net P} (h : z.NetInv G e net) (hst : Stalled z.H net)
    {i : sp.Id} {s : Session P} {a : Accum P} (hn : net.node i = some (.running s a)) :
    ∃ x, WaitsFor net i x ∧ (z.H x → e x < e i) := by
  have hi := h.who i _ hn
  obtain ⟨t, he, hs, ha⟩ := h.running i s a hn
  have hny : a.notSent.isEmpty = false := by
    have hc := hst.stuck i s a hn
    unfold Accum.canFinalize at hc
    split at hc
    · simp at hc
    · split at hc
      · assumption
      · simp at hc
  obtain ⟨x, hx⟩ := BMap.isEmpty_eq_false.1 hny
  have hl := ha.loc x
  have hxe : (z.pl.xAt t i).contains x = true := hl.notSent hx
  have hp : a.payloads.get? x = none := by
    cases hp : a.payloads.get? x with
    | none => rfl
    | some v =>
      have := hl.apart (show (a.loc x).payload.isSome = true by rw [show (a.loc x).payload = some v from hp]; rfl)
      rw [show (a.loc x).notSent = true from hx] at this
      simp at this
  refine ⟨x, ⟨s, a, hn, by rw [hs.comm]; exact hxe, hp, hx⟩, ?_⟩
  intro hxh
  rw [he]
  by_contra hc
  have hlt : t < e x := by omega
  have hdx : (z.pl.dAt t x).contains i = true := by
    have := ok.rob.pattern.matched _ _ _ (h.entered x t hlt) (ok.rob.members x hxh) (ok.rob.members i hi)
    simp only [Plan.dAt, Plan.xAt] at hxe ⊢
    rw [this]
    exact hxe
  rcases h.sent i x t hi hxh hlt hdx with ⟨p, hpw, h1, h2, -⟩ | ⟨s', a', hn', hc⟩ | ⟨r, hn'⟩
  · exact hst.delivered p hpw (by rw [h1]; exact hxh) s a (by rw [h2]; exact hn)
  · rw [hn] at hn'
    simp only [Option.some.injEq, RunState.running.injEq] at hn'
    obtain ⟨rfl, rfl⟩ := hn'
    rcases hc with hc | ⟨-, hc⟩ | ⟨hc, -⟩
    · omega
    · rw [contains_isSome, hp] at hc; simp at hc
    · omega
  · rw [hn] at hn'; simp at hn'

/-- The reason the network is stuck. -/
theorem NetInv.reason (ok : z.Ok) {G : History P} {e : sp.Id → Nat} {net : Net P}
    (h : z.NetInv G e net) (hst : Stalled z.H net) {i : sp.Id} {s : Session P} {a : Accum P}
    (hn : net.node i = some (.running s a)) :
    (∃ j x, z.H j ∧ ¬ z.H x ∧ WaitsFor net j x) ∨
      ∃ j x, z.H j ∧ z.H x ∧ WaitsFor net j x ∧ e x < e j ∧ ∃ r, net.node x = some (.done r) := by
  obtain ⟨t, ht⟩ : ∃ t, e i = t := ⟨_, rfl⟩
  induction t using Nat.strongRecOn generalizing i s a with
  | _ t ih =>
    have hi := h.who i _ hn
    obtain ⟨x, hw, hlt⟩ := h.waits ok hst hn
    by_cases hx : z.H x
    · cases hnx : net.node x with
      | none => exact absurd hnx (hst.started x hx)
      | some st =>
        cases st with
        | running s' a' => exact ih (e x) (by rw [← ht]; exact hlt hx) hnx rfl
        | done r => exact Or.inr ⟨i, x, hi, hx, hw, hlt hx, r, hnx⟩
    · exact Or.inl ⟨i, x, hi, hx, hw⟩

end Byz

end Manul
