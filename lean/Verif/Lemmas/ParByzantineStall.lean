import Verif.Lemmas.ParByzantineRun
import Verif.Lemmas.ParVisits
import Verif.Lemmas.Settle

/-!
# Parties using `par_run_session` that are stuck

Where the reports come from, why a party that follows the protocol can be stuck, and that they cannot go on forever.
-/

namespace Manul

variable {sp : SP} {P : Proto sp}

/-- Every party is in a state of a run of `par_run_session`. -/
theorem PByzReach.origin {g : Group P} {H : sp.Id → Prop} {adv : Packet sp → Prop} {c : PNet P} (h : PByzReach g H adv c) :
    ∀ i st, c.node i = some st → (∃ e, st = .done (.error e)) ∨
      ∃ rng s₀, Session.new rng g.sid (g.signer i) (g.ep i) = .ok s₀ ∧ ParAny s₀ st := by
  have hput : ∀ {m : PNet P} {j : sp.Id} {st' : ParState P} {out : List (Message sp)},
      (∀ i st, m.node i = some st → (∃ e, st = .done (.error e)) ∨
        ∃ rng s₀, Session.new rng g.sid (g.signer i) (g.ep i) = .ok s₀ ∧ ParAny s₀ st) →
      ((∃ e, st' = .done (.error e)) ∨ ∃ rng s₀, Session.new rng g.sid (g.signer j) (g.ep j) = .ok s₀ ∧ ParAny s₀ st') →
      ∀ i st, (m.put j st' out).node i = some st → (∃ e, st = .done (.error e)) ∨
        ∃ rng s₀, Session.new rng g.sid (g.signer i) (g.ep i) = .ok s₀ ∧ ParAny s₀ st := by
    intro m j st' out hm hj i st hi
    by_cases hij : i = j
    · subst hij
      simp only [PNet.put, Function.update_self, Option.some.injEq] at hi
      subst hi
      exact hj
    · simp only [PNet.put, Function.update_of_ne hij] at hi
      exact hm i st hi
  have hstep : ∀ {m : PNet P} {j : sp.Id} {s : Session P} {st : ParSt P} {st' : ParState P} {ev : ParEvent sp},
      (∀ i st, m.node i = some st → (∃ e, st = .done (.error e)) ∨
        ∃ rng s₀, Session.new rng g.sid (g.signer i) (g.ep i) = .ok s₀ ∧ ParAny s₀ st) →
      m.node j = some (.running s st) → parStep (.running s st) ev = some st' →
      ((∃ e, st' = .done (.error e)) ∨ ∃ rng s₀, Session.new rng g.sid (g.signer j) (g.ep j) = .ok s₀ ∧ ParAny s₀ st') := by
    intro m j s st st' ev hm hn hs
    rcases hm j _ hn with ⟨r, hr⟩ | ⟨rng0, s₀, h1, h2⟩
    · cases hr
    · exact Or.inr ⟨rng0, s₀, h1, .step h2 hs⟩
  induction h with
  | init => intro i st hi; simp [PNet.init] at hi
  | step _ hs ih =>
    cases hs with
    | @start i rng rng' hi hn =>
      apply hput ih
      unfold Group.startPar
      cases hn : Session.new rng g.sid (g.signer i) (g.ep i) with
      | error e => exact Or.inl ⟨_, rfl⟩
      | ok s => exact Or.inr ⟨rng, s, hn, .start rng'⟩
    | tick hn hs => exact hput ih (hstep ih hn hs)
    | task hn _ hs => exact hput ih (hstep ih hn hs)
    | deliver hw hn hs => exact hput (m := ⟨_, _⟩) ih (hstep ih hn hs)
    | inject _ _ => exact ih

/-- A report in which nothing is missing has a result or an accusation. -/
theorem par_report_reason {s₀ : Session P} {rep : Report P} (h : ParAny s₀ (.done (.ok rep))) (hm : rep.missing = BMap.empty) :
    (∃ v, rep.outcome = .result v) ∨ ∃ x, rep.provable.contains x = true ∨ rep.unprovable.contains x = true := by
  rcases parAny_cases h with ⟨_, _, _, _, _, _, he, -⟩ | ⟨trail, s, cached, l, a, r, he, hv, ha, hw⟩ | ⟨_, he⟩
  · cases he
  · simp only [ParState.done.injEq, Except.ok.injEq] at he
    subst he
    rcases hw with ⟨-, rng, hf⟩ | ⟨hy, ht⟩
    · obtain ⟨tr, -, hfin⟩ := finalizeRound_ok hf
      cases hfin with
      | @result v hinfo hfz => exact Or.inl ⟨v, rfl⟩
    · exact Or.inr (terminate_reason ht (anyRound_reach ha) hy hm)
  · cases he

namespace Byz

variable {z : Byz P}

theorem PSim.done {c : PNet P} {n : Net P} (h : z.PSim c n) {i : sp.Id} {r : Except LErr (Report P)} :
    c.node i = some (.done r) ↔ n.node i = some (.done r) := by
  have := h.node i
  constructor
  · intro hc
    rw [hc] at this
    generalize n.node i = o at this
    cases this
    rfl
  · intro hc
    rw [hc] at this
    generalize c.node i = o at this
    cases this
    rfl

theorem PSim.none {c : PNet P} {n : Net P} (h : z.PSim c n) {i : sp.Id} : c.node i = none ↔ n.node i = none := by
  have := h.node i
  constructor
  · intro hc
    rw [hc] at this
    generalize n.node i = o at this
    cases this
    rfl
  · intro hc
    rw [hc] at this
    generalize c.node i = o at this
    cases this
    rfl

theorem PSim.back {c : PNet P} {n : Net P} (h : z.PSim c n) {i : sp.Id} {s : Session P} {a : Accum P}
    (hn : n.node i = some (.running s a)) : ∃ st, c.node i = some (.running s st) ∧ z.NodeOk s st a := by
  have := h.node i
  rw [hn] at this
  generalize c.node i = o at this
  cases this with
  | running hok => exact ⟨_, rfl, hok⟩

theorem PSim.waitsFor {c : PNet P} {n : Net P} (h : z.PSim c n) {i x : sp.Id} (hw : WaitsFor n i x) : PWaitsFor c i x := by
  obtain ⟨s, a, h1, h2, h3, h4⟩ := hw
  obtain ⟨st, g1, g2⟩ := h.back h1
  refine ⟨s, st, g1, h2, ?_, ?_⟩
  · rw [g2.acc] at h3
    exact h3
  · rw [g2.acc] at h4
    exact h4

/-- If nobody has failed, the parties are stuck in the corresponding network, too. -/
theorem PSim.stalled {c : PNet P} {n : Net P} (h : z.PSim c n) (hst : PStalled z.H c) (hf : ∀ i er, c.node i ≠ some (.done (.error er))) :
    Stalled z.H n := by
  have hown : z.own c.node = 0 := by
    unfold own
    apply List.sum_eq_zero
    intro x hx
    obtain ⟨i, -, rfl⟩ := List.mem_map.1 hx
    cases hn : c.node i with
    | none => rfl
    | some st =>
      cases st with
      | done r => rfl
      | running s st =>
        obtain ⟨h1, h2⟩ := hst.tasks i s st hn
        simp [held, h1, h2, hon]
  obtain ⟨gh, hw, hgh⟩ := h.wire
  have hg0 : gh = 0 := by
    by_contra hc
    obtain ⟨i, r, hi⟩ := hgh hc
    exact hf i r hi
  rw [hown, hg0, add_zero, add_zero] at hw
  refine ⟨fun i hi hn => hst.started i hi (h.none.2 hn), ?_, ?_⟩
  · intro p hp hps s a hn
    have : p ∈ z.hon c.wire := by
      rw [← hw]
      exact Multiset.mem_coe.2 hp
    obtain ⟨st, g1, -⟩ := h.back hn
    exact hst.delivered p (mem_hon.1 this).1 hps s st g1
  · intro i s a hn
    obtain ⟨st, g1, g2⟩ := h.back hn
    rw [g2.canFinalize]
    exact hst.stuck i s st g1

/-- Where no step is possible, the parties are stuck. -/
theorem PSim.rest {c : PNet P} {n : Net P} (h : z.PSim c n) (rng : sp.Rng)
    (hr : ∀ c', ¬ PByzStep z.pl.g z.H (fun _ => False) c c') : PStalled z.H c := by
  have htick : ∀ i s st, c.node i = some (.running s st) → st.accum.canFinalize = .notYet := by
    intro i s st hn
    cases hc : st.accum.canFinalize with
    | notYet => rfl
    | yes => exact absurd (PByzStep.tick (rng := rng) hn (by simp only [parStep, hc]; rfl)) (hr _)
    | never => exact absurd (PByzStep.tick (rng := rng) hn (by simp only [parStep, hc]; rfl)) (hr _)
  have hop : ∀ i s st o, c.node i = some (.running s st) → ∃ st', parStep (.running s st) (.op o) = some st' := by
    intro i s st o hn
    simp only [parStep, htick i s st hn]
    cases parOp s st o with
    | error e => exact ⟨_, rfl⟩
    | ok st' => exact ⟨_, rfl⟩
  refine ⟨fun i hi hn => hr _ (.start rng rng hi hn), ?_, ?_, htick⟩
  · intro p hp _ s st hn
    obtain ⟨w, w', hw⟩ := List.append_of_mem hp
    obtain ⟨st', hst'⟩ := hop _ s st (.deliver p.src p.message) hn
    exact hr _ (.deliver hw hn hst')
  · intro i s st hn
    constructor
    · by_contra hc
      obtain ⟨st', hst'⟩ := hop _ s st (.complete 0) hn
      exact hr _ (.task (o := .complete 0) hn (List.length_pos_iff.2 hc) hst')
    · by_contra hc
      obtain ⟨a, -, hok⟩ := h.running hn
      obtain ⟨o, os, ho⟩ := List.exists_cons_of_ne_nil hc
      have h0 : st.outgoing[0]? = some o := by rw [ho]; rfl
      obtain ⟨A', hA, -⟩ := hok.joins.take h0
      have hap := hA st.accum rfl
      obtain ⟨d, res⟩ := o
      cases res with
      | error er => simp [outApply] at hap
      | ok r =>
        obtain ⟨st', hst'⟩ := hop _ s st (.send 0) hn
        exact hr _ (.task (o := .send 0) hn ⟨_, r.1, h0, rfl⟩ hst')

/-- The number of positions party `i` may still enter. -/
def pleft (z : Byz P) (e : sp.Id → Nat) (i : sp.Id) : Option (ParState P) → Nat
  | none => 2 * z.pl.n + 2
  | some (.running _ _) => 2 * z.pl.n + 1 - e i
  | some (.done _) => 0

/-- What party `i` has to do in its round. -/
def load : Option (ParState P) → Nat
  | some (.running _ st) => 3 * st.outgoing.length + st.tasks.length
  | _ => 0

def allLeft (z : Byz P) (e : sp.Id → Nat) (c : PNet P) : Nat := (z.pl.g.parties.elems.map (fun i => z.pleft e i (c.node i))).sum

def allLoad (z : Byz P) (c : PNet P) : Nat := 2 * c.wire.length + (z.pl.g.parties.elems.map (fun i => load (c.node i))).sum

/-- A party enters the next round or ends. -/
theorem allLeft_less (ok : z.Ok) {e e' : sp.Id → Nat} {c : PNet P} {i : sp.Id} (hH : z.H i) (hn : ∀ r, c.node i ≠ some (.done r))
    {st' : ParState P} {w : List (Packet sp)} (ho : ∀ x, x ≠ i → e' x = e x) (hb : e i ≤ 2 * z.pl.n)
    (hm : (∃ r, st' = .done r) ∨ e' i = e i + 1) : z.allLeft e' ⟨Function.update c.node i (some st'), w⟩ < z.allLeft e c := by
  have hlt : z.pleft e' i (some st') < z.pleft e i (c.node i) := by
    have hold : 2 * z.pl.n + 1 - e i ≤ z.pleft e i (c.node i) := by
      unfold pleft
      split
      · omega
      · exact Nat.le_refl _
      · rename_i r' h5; exact absurd h5 (hn r')
    rcases hm with ⟨r, rfl⟩ | h4
    · have hnew : z.pleft e' i (some (.done r)) = 0 := rfl
      omega
    · cases st' with
      | done r =>
        have hnew : z.pleft e' i (some (.done r)) = 0 := rfl
        omega
      | running s a =>
        have hnew : z.pleft e' i (some (.running s a)) = 2 * z.pl.n + 1 - e' i := rfl
        omega
  refine sum_lt (fun x _ => ?_) (BSet.mem_elems.2 (ok.rob.members i hH)) (by simpa using hlt)
  by_cases hx : x = i
  · subst hx
    simpa using hlt.le
  · simp only [Function.update_of_ne hx]
    unfold pleft
    rw [ho x hx]

/-- A party does something in its round. -/
theorem allLoad_less (ok : z.Ok) {e : sp.Id → Nat} {c : PNet P} {i : sp.Id} (hH : z.H i) {s : Session P} {st st1 : ParSt P}
    (hn : c.node i = some (.running s st)) {w : List (Packet sp)}
    (hl : 2 * w.length + (3 * st1.outgoing.length + st1.tasks.length) <
      2 * c.wire.length + (3 * st.outgoing.length + st.tasks.length)) :
    z.allLeft e ⟨Function.update c.node i (some (.running s st1)), w⟩ = z.allLeft e c ∧
      z.allLoad ⟨Function.update c.node i (some (.running s st1)), w⟩ < z.allLoad c := by
  have hmem := BSet.mem_elems.2 (ok.rob.members i hH)
  constructor
  · obtain ⟨R, h1, h2⟩ := sum_update (BSet.elems_nodup z.pl.g.parties) hmem (fun i x => z.pleft e i x) c.node
    unfold allLeft
    rw [h1, h2, hn]
    rfl
  · obtain ⟨R, h1, h2⟩ := sum_update (BSet.elems_nodup z.pl.g.parties) hmem (fun _ x => load (P := P) x) c.node
    unfold allLoad
    rw [h1, h2, hn]
    simp only [load]
    omega

theorem lex_right {a a' b b' : Nat} (h : a = a') (hb : b < b') : Prod.Lex (· < ·) (· < ·) (a, b) (a', b') := by
  subst h
  exact Prod.Lex.right _ hb

/-- Every step the parties following the protocol make brings them closer to the end. -/
theorem PSim.less (ok : z.Ok) (env : sp.EnvOk) (dm : DirectsMade z.pl z.H) {c c' : PNet P} {n : Net P} (h : z.PSim c n)
    {G : History P} {e : sp.Id → Nat} (hi : z.NetInv G e n) (hst : PByzStep z.pl.g z.H (fun _ => False) c c') :
    ∃ G' e' n', z.NetInv G' e' n' ∧ z.PSim c' n' ∧
      Prod.Lex (· < ·) (· < ·) (z.allLeft e' c', z.allLoad c') (z.allLeft e c, z.allLoad c) := by
  -- a party that enters a round
  have henter : ∀ {i : sp.Id} {st' : ParState P} {out : List (Message sp)} {G' : History P} {e' : sp.Id → Nat} {n' : Net P}, z.H i →
      (∀ r, c.node i ≠ some (.done r)) → z.NetInv G' e' n' → z.PSim (c.put i st' out) n' → Moves e e' n' i →
      ∃ G' e' n', z.NetInv G' e' n' ∧ z.PSim (c.put i st' out) n' ∧
        Prod.Lex (· < ·) (· < ·) (z.allLeft e' (c.put i st' out), z.allLoad (c.put i st' out)) (z.allLeft e c, z.allLoad c) := by
    intro i st' out G' e' n' hH hn h1 h2 hm
    refine ⟨G', e', n', h1, h2, Prod.Lex.left _ _ (allLeft_less ok hH hn hm.1 (hi.bound i) ?_)⟩
    rcases hm.2 with ⟨r, hr⟩ | ⟨_, _, -, h4⟩
    · have := h2.done.2 hr
      simp only [PNet.put, Function.update_self, Option.some.injEq] at this
      exact Or.inl ⟨r, this⟩
    · exact Or.inr h4
  cases hst with
  | start rng rng' hH hn =>
    obtain ⟨G', e', n', h1, h2, hm⟩ := h.starts ok env dm hi hH hn rng rng'
    exact henter hH (by simp [hn]) h1 h2 hm
  | @tick i s st st' rng hn hs =>
    obtain ⟨a, hna, -⟩ := h.running hn
    obtain ⟨G', e', n', h1, h2, hm⟩ := h.ticks ok env dm hi hn hs
    exact henter (hi.who _ _ hna) (by simp [hn]) h1 h2 hm
  | @task i s st st' o hn hen hs =>
    obtain ⟨a, hna, -⟩ := h.running hn
    have hH := hi.who _ _ hna
    obtain ⟨n', h1, h2⟩ := h.tasks ok hi hn hen hs
    refine ⟨G, e, n', h1, h2, ?_⟩
    cases st' with
    | done r => exact Prod.Lex.left _ _ (allLeft_less ok hH (by simp [hn]) (fun _ _ => rfl) (hi.bound i) (Or.inl ⟨r, rfl⟩))
    | running s' st1 =>
      simp only [parStep] at hs
      cases hc : st.accum.canFinalize with
      | yes => simp [hc] at hs
      | never => simp [hc] at hs
      | notYet =>
        simp only [hc] at hs
        have key : s' = s ∧ 2 * (c.wire ++ (parOut st (.op o)).map (packetOf i)).length +
            (3 * st1.outgoing.length + st1.tasks.length) < 2 * c.wire.length + (3 * st.outgoing.length + st.tasks.length) := by
          cases o with
          | deliver x m => exact absurd hen (by simp [ParOp.Enabled])
          | complete k =>
            simp only [parOp] at hs
            have hk : k < st.tasks.length := hen
            rw [List.getElem?_eq_getElem hk] at hs
            simp only at hs
            split at hs
            · simp at hs
            · rename_i ho
              split at ho
              · simp at ho
              · simp only [Except.ok.injEq] at ho
                simp only [Option.some.injEq, ParState.running.injEq] at hs
                obtain ⟨rfl, rfl⟩ := hs
                subst ho
                refine ⟨rfl, ?_⟩
                simp only [parOut, List.map_nil, List.append_nil, List.length_eraseIdx_of_lt hk]
                omega
          | send k =>
            obtain ⟨o, m, ho, hm⟩ := hen
            obtain ⟨d, res⟩ := o
            have hk : k < st.outgoing.length := by
              by_contra hc
              rw [List.getElem?_eq_none (by omega)] at ho
              cases ho
            cases res with
            | error er => simp [taskMessage] at hm
            | ok r =>
              simp only [parOp, ho] at hs
              split at hs
              · simp at hs
              · rename_i ho'
                split at ho'
                · simp at ho'
                · simp only [Except.ok.injEq] at ho'
                  simp only [Option.some.injEq, ParState.running.injEq] at hs
                  obtain ⟨rfl, rfl⟩ := hs
                  subst ho'
                  refine ⟨rfl, ?_⟩
                  simp only [parOut, ho, taskMessage, Option.toList_some, List.map_cons, List.map_nil, List.length_append,
                    List.length_cons, List.length_nil, List.length_eraseIdx_of_lt hk]
                  omega
        obtain ⟨rfl, hl⟩ := key
        obtain ⟨g1, g2⟩ := allLoad_less (e := e) ok hH hn hl
        exact lex_right g1 g2
  | @deliver s st st' p w w' hw hn hs =>
    obtain ⟨a, hna, -⟩ := h.running hn
    have hH := hi.who _ _ hna
    obtain ⟨n', h1, h2⟩ := h.delivers ok hi hw hn hs
    refine ⟨G, e, n', h1, h2, ?_⟩
    cases st' with
    | done r => exact Prod.Lex.left _ _ (allLeft_less ok hH (by simp [hn]) (fun _ _ => rfl) (hi.bound _) (Or.inl ⟨r, rfl⟩))
    | running s' st1 =>
      simp only [parStep] at hs
      cases hc : st.accum.canFinalize with
      | yes => simp [hc] at hs
      | never => simp [hc] at hs
      | notYet =>
        simp only [hc, parOp] at hs
        have key : s' = s ∧ 2 * ((w ++ w') ++ ([] : List (Message sp)).map (packetOf p.dest)).length +
            (3 * st1.outgoing.length + st1.tasks.length) < 2 * c.wire.length + (3 * st.outgoing.length + st.tasks.length) := by
          rw [hw]
          split at hs
          · simp at hs
          · rename_i ho
            simp only [Option.some.injEq, ParState.running.injEq] at hs
            obtain ⟨rfl, rfl⟩ := hs
            refine ⟨rfl, ?_⟩
            split at ho
            · simp at ho
            · split at ho
              · simp only [Except.ok.injEq] at ho
                subst ho
                simp
                omega
              · simp only [Except.ok.injEq] at ho
                subst ho
                simp
        obtain ⟨rfl, hl⟩ := key
        obtain ⟨g1, g2⟩ := allLoad_less (e := e) ok hH hn hl
        exact lex_right g1 g2
  | inject _ hf => exact absurd hf id

/-- So they cannot go on forever by themselves. -/
theorem PSim.acc (ok : z.Ok) (env : sp.EnvOk) (dm : DirectsMade z.pl z.H) {c : PNet P} {n : Net P} (h : z.PSim c n)
    {G : History P} {e : sp.Id → Nat} (hi : z.NetInv G e n) :
    Acc (fun m' m => PByzStep z.pl.g z.H (fun _ => False) m m') c := by
  have wf : WellFounded (Prod.Lex (· < ·) (· < ·) : Nat × Nat → Nat × Nat → Prop) :=
    WellFounded.prod_lex Nat.lt_wfRel.wf Nat.lt_wfRel.wf
  generalize hw : (z.allLeft e c, z.allLoad c) = w
  induction w using wf.induction generalizing G e n c with
  | _ w ih =>
    refine Acc.intro _ (fun m hm => ?_)
    obtain ⟨G', e', n', h1, h2, hl⟩ := h.less ok env dm hi hm
    exact ih _ (hw ▸ hl) h2 h1 rfl

end Byz

theorem PByzStep.mono {g : Group P} {H : sp.Id → Prop} {adv adv' : Packet sp → Prop} (h : ∀ p, adv p → adv' p) {c c' : PNet P}
    (hs : PByzStep g H adv c c') : PByzStep g H adv' c c' := by
  cases hs with
  | start rng rng' h1 h2 => exact .start rng rng' h1 h2
  | tick h1 h2 => exact .tick h1 h2
  | task h1 h2 h3 => exact .task h1 h2 h3
  | deliver h1 h2 h3 => exact .deliver h1 h2 h3
  | inject h1 h2 => exact .inject h1 (h _ h2)

theorem PByzReach.steps {g : Group P} {H : sp.Id → Prop} {adv : Packet sp → Prop} {c c' : PNet P} (h : PByzReach g H adv c)
    (hs : Relation.ReflTransGen (PByzStep g H (fun _ => False)) c c') : PByzReach g H adv c' := by
  induction hs with
  | refl => exact h
  | tail _ hs ih => exact .step ih (hs.mono (fun _ hf => absurd hf id))

end Manul
