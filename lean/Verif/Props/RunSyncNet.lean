import Verif.Lemmas.RunSyncNet
import Verif.Lemmas.RunSyncQuiet
import Verif.Props.Network
import Verif.Props.RunSync

/-!
# `run_sync` of parties following the protocol (C53)

`run_sync` (`manul/src/dev/run_sync.rs`) runs the sessions of all parties in one thread, delivering messages in a random order.
-/

namespace Manul

variable {sp : SP} {P : Proto sp} {sc : Scheme P}

theorem mapE_exists {A B : Type} {g : A → Except LErr B} {l : List A} (h : ∀ a ∈ l, ∃ b, g a = .ok b) :
    ∃ l', mapE g l = .ok l' := by
  induction l with
  | nil => exact ⟨[], rfl⟩
  | cons a l ih =>
    obtain ⟨b, hb⟩ := h a (List.mem_cons_self ..)
    obtain ⟨l', hl'⟩ := ih (fun x hx => h x (List.mem_cons_of_mem _ hx))
    exact ⟨b :: l', by simp only [mapE, hb, hl']⟩

/-- The reports of nodes none of which fails. -/
theorem reportsOf_total {states : BMap sp.Id (NodeState P)} (h : ∀ i st, states.get? i = some st → ∃ r, st.report = .ok r) :
    ∃ reports, reportsOf states = .ok reports ∧ (∀ i, reports.contains i = states.contains i) ∧
      ∀ i r, reports.get? i = some r → ∃ st, states.get? i = some st ∧ st.report = .ok r := by
  obtain ⟨l, hl⟩ := mapE_exists (g := fun e : sp.Id × NodeState P =>
      match e.2.report with
      | .error err => Except.error err
      | .ok r => Except.ok (e.1, r)) (l := states.toList) (by
    rintro ⟨i, st⟩ hm
    obtain ⟨r, hr⟩ := h i st (BMap.mem_toList.1 hm)
    exact ⟨(i, r), by simp only [hr]⟩)
  obtain ⟨k1, k2⟩ := mapE_keys (f := NodeState.report) (fun _ a => by cases h : a.report <;> simp [h]) hl
  refine ⟨BMap.ofList l, ?_, ?_, ?_⟩
  · unfold reportsOf
    split
    · rename_i e he
      cases hl.symm.trans he
    · rename_i l' he
      cases hl.symm.trans he
      rfl
  · intro i
    rw [Bool.eq_iff_iff, BMap.contains_ofList, k1, BMap.contains_iff, List.mem_map]
    constructor
    · rintro ⟨⟨k, st⟩, h1, rfl⟩
      exact ⟨st, BMap.mem_toList.1 h1⟩
    · rintro ⟨st, h1⟩
      exact ⟨(i, st), BMap.mem_toList.2 h1, rfl⟩
  · intro i r hr
    rw [BMap.get?_ofList_nodup (by rw [k1]; exact states.toList_nodupKeys)] at hr
    obtain ⟨st, h1, h2⟩ := k2 _ _ hr
    exact ⟨st, BMap.mem_toList.1 h1, h2⟩

/-- The reports of nodes that have all finished. -/
theorem reportsOf_finished {states : BMap sp.Id (NodeState P)} (h : ∀ i st, states.get? i = some st → ∃ r, st = .finished r) :
    ∃ reports, reportsOf states = .ok reports ∧ (∀ i, reports.contains i = states.contains i) ∧
      ∀ i r, reports.get? i = some r → states.get? i = some (.finished r) := by
  obtain ⟨reports, h1, h2, h3⟩ := reportsOf_total (states := states) (by
    intro i st hst
    obtain ⟨r, rfl⟩ := h i st hst
    exact ⟨r, rfl⟩)
  refine ⟨reports, h1, h2, ?_⟩
  intro i r hr
  obtain ⟨st, h4, h5⟩ := h3 i r hr
  obtain ⟨r', rfl⟩ := h _ _ h4
  simp only [NodeState.report, Except.ok.injEq] at h5
  rw [h4, h5]

/-- What is found when all parties follow the protocol: all have a report with the result of an execution of the protocol, and
nothing recorded against anybody. -/
def ReportsAll (sc : Scheme P) (reports : BMap sp.Id (Report P)) : Prop :=
  (∀ i, reports.contains i = sc.g.parties.contains i) ∧
  ∃ G : History P, Honest sc.g G ∧ ∀ i rep, reports.get? i = some rep →
    rep.provable.isEmpty = true ∧ rep.unprovable.isEmpty = true ∧ rep.missing.isEmpty = true ∧ (G i).length = sc.n ∧
    ∃ v rng, rep.outcome = .result v ∧ Finalizes G i rng (.result v)

/-- A state of the network in which exactly the parties with a report have started, and have finished with that report. -/
def Reported (n : Net P) (reports : BMap sp.Id (Report P)) : Prop :=
  ∀ i, n.node i = (reports.get? i).map (fun rep => RunState.done (.ok rep))

/-- **C53.** `run_sync` of parties following the protocol returns reports with which the parties can finish over an
asynchronous network; or it panics, which is possible only if nobody sends anything in the first stage. -/
theorem C53_refines (ok : sc.Ok) {l : List sp.Id} (hl : sc.g.Enum l) {o : Except SyncErr (BMap sp.Id (Report P))}
    (h : RunSync sc.g.sid (sc.g.nodes l) o) :
    (∃ reports n, o = .ok reports ∧ NetReach sc.g n ∧ (∀ n', ¬ NetStep sc.g n n') ∧ Reported n reports) ∨
    (o = .error .emptyRange ∧ ∀ i, sc.g.parties.contains i = true → (sc.dests 0 i).isEmpty = true) := by
  rcases RunSync.net ok.regular hl h with ⟨y, k, n, dead, hx, hf, hq, ⟨rng⟩, hres⟩ | ⟨h1, h2⟩
  · have hstuck := hx.stuck hf hq
    have hall := C59_finishes rng ok hx.takes.reach hstuck
    obtain ⟨L, e, f, hinv⟩ := Scheme.NetInv.reach ok hx.takes.reach
    have hfin : ∀ i st, y.states.get? i = some st → ∃ r, st = .finished r := by
      intro i st hst
      obtain ⟨rep, v, h1, -⟩ := hall i (hinv.party i st.toRun (by rw [hx.node, hst]; rfl))
      rw [hx.node, hst] at h1
      cases st with
      | finished r => exact ⟨r, rfl⟩
      | inProgress s a => cases h1
    obtain ⟨reports, h1, h2, h3⟩ := reportsOf_finished hfin
    rw [h1] at hres
    rcases hres with ⟨e, he, -⟩ | ⟨r, he, rfl⟩
    · cases he
    cases he
    refine Or.inl ⟨reports, n, rfl, hx.takes.reach, hstuck, ?_⟩
    intro i
    rw [hx.node]
    cases hr : reports.get? i with
    | none =>
      have := h2 i
      rw [BMap.contains_eq_false.2 hr] at this
      rw [BMap.contains_eq_false.1 this.symm]
      rfl
    | some rep =>
      rw [h3 i rep hr]
      rfl
  · exact Or.inr ⟨h1, fun i hi => no_dests (h2 i hi)⟩

/-- **C53.** `run_sync` of parties following the protocol reports the results of all of them; or it panics, which is possible
only if nobody sends anything in the first stage. -/
theorem C53_outcome (ok : sc.Ok) (rng : sp.Rng) {l : List sp.Id} (hl : sc.g.Enum l)
    {o : Except SyncErr (BMap sp.Id (Report P))} (h : RunSync sc.g.sid (sc.g.nodes l) o) :
    (∃ reports, o = .ok reports ∧ ReportsAll sc reports) ∨
    (o = .error .emptyRange ∧ ∀ i, sc.g.parties.contains i = true → (sc.dests 0 i).isEmpty = true) := by
  rcases C53_refines ok hl h with ⟨reports, n, rfl, hn, hstuck, hrep⟩ | h1
  · refine Or.inl ⟨reports, rfl, ?_, ?_⟩
    · intro i
      obtain ⟨L, e, f, hinv⟩ := Scheme.NetInv.reach ok hn
      rw [Bool.eq_iff_iff, BMap.contains_iff]
      constructor
      · rintro ⟨rep, hr⟩
        exact hinv.party i _ (by rw [hrep, hr]; rfl)
      · intro hi
        obtain ⟨rep, v, h1, -⟩ := C59_finishes rng ok hn hstuck i hi
        rw [hrep] at h1
        cases hr : reports.get? i with
        | none => rw [hr] at h1; cases h1
        | some rep => exact ⟨rep, rfl⟩
    · obtain ⟨G, hG, hres⟩ := C59_results ok hn
      refine ⟨G, hG, ?_⟩
      intro i rep hr
      have hni : n.node i = some (.done (.ok rep)) := by rw [hrep, hr]; rfl
      obtain ⟨L, e, f, hinv⟩ := Scheme.NetInv.reach ok hn
      obtain ⟨rep', v, h5, -, h6, h7, h8⟩ := C59_finishes rng ok hn hstuck i (hinv.party i _ hni)
      rw [hni] at h5
      cases h5
      obtain ⟨h9, h10⟩ := hres i rep hni
      exact ⟨h6, h7, h8, h9, h10⟩
  · exact Or.inr h1

/-- **C53.** If somebody sends a message in the first stage, `run_sync` reports the results of all parties, whatever the order
in which the nodes are given and the messages are delivered. -/
theorem C53_reports (ok : sc.Ok) (rng : sp.Rng) {l : List sp.Id} (hl : sc.g.Enum l) {i : sp.Id} (hi : sc.g.parties.contains i = true)
    (hd : (sc.dests 0 i).isEmpty = false) {o : Except SyncErr (BMap sp.Id (Report P))}
    (h : RunSync sc.g.sid (sc.g.nodes l) o) : ∃ reports, o = .ok reports ∧ ReportsAll sc reports := by
  rcases C53_outcome ok rng hl h with h1 | ⟨-, h1⟩
  · exact h1
  · rw [h1 i hi] at hd
    cases hd

theorem not_silent {t : Nat} {i j : sp.Id} (h : sc.Silent) (ht : t < 2 * sc.n) (hi : sc.g.parties.contains i = true) :
    (sc.xAt t i).contains j = false := by
  cases hsp : spot t with
  | mk k b =>
    have hk : k < sc.n := by
      have := spot_lt.2 ht
      rw [hsp] at this
      exact this
    cases b with
    | false =>
      rw [Scheme.xAt_main hsp]
      exact (h k i j hk hi).1
    | true =>
      simp only [Scheme.xAt, hsp]
      split
      · rename_i hr
        exact (h k i j hk hi).2 hr
      · rfl

/-- **C53.** The panic happens exactly if nobody sends anything in the whole execution of the protocol. -/
theorem C53_panic_exact (ok : sc.Ok) (rng : sp.Rng) {l : List sp.Id} (hl : sc.g.Enum l)
    {o : Except SyncErr (BMap sp.Id (Report P))} (h : RunSync sc.g.sid (sc.g.nodes l) o) :
    o = .error .emptyRange ↔ sc.Silent := by
  constructor
  · rintro rfl
    obtain ⟨x, hs, hq⟩ := C44_run_sync_panic_partial _ _ h
    have key : ∀ t i j, t < 2 * sc.n → sc.g.parties.contains i = true → (sc.g.others i).contains j = true →
        (sc.xAt t i).contains j = false := by
      intro t i j ht hi hj
      simp only [Group.others, BMap.contains_erase, Bool.and_eq_true, Bool.not_eq_true', decide_eq_false_iff_not] at hj
      exact setup_quiet ok rng hl hs hq ht hi hj.2 (Ne.symm (of_decide_eq_true hj.1))
    intro k i j hk hi
    refine ⟨?_, ?_⟩
    · rw [Bool.eq_false_iff]
      intro hj
      have := key (2 * k) i j (by omega) hi (ok.coop.pattern.expects k i j hk hi hj)
      rw [Scheme.xAt_main (spot_main.2 rfl), hj] at this
      cases this
    · intro hr
      rw [Bool.eq_false_iff]
      intro hj
      have := key (2 * k + 1) i j (by omega) hi (ok.coop.pattern.peers k i j hk hi hr hj).1
      rw [Scheme.xAt, spot_echo.2 rfl] at this
      simp only [hr, if_true, hj] at this
      cases this
  · intro hsil
    have empty : ∀ {x : SyncState P} {k : Nat} {n : Net P}, SyncNet sc.g k x n [] → x.queue.isEmpty = true := by
      intro x k n hx
      rw [Queue.isEmpty_iff hx.queue]
      cases hc : x.queue.contents with
      | nil => rfl
      | cons m q =>
        exfalso
        obtain ⟨L, e, f, hinv⟩ := Scheme.NetInv.reach ok hx.takes.reach
        obtain ⟨h1, t, h2, h3, -⟩ := hinv.wire m.packet (hx.wire.symm.subset (by rw [hc]; simp))
        rw [not_silent hsil (spot_lt.1 (hinv.entered h2)) h1] at h3
        cases h3
    cases h with
    | setupErr hs =>
      obtain ⟨x, k, n, he, -⟩ := SyncNet.ready ok.regular hl hs
      cases he
    | loopErr hs hd =>
      obtain ⟨x, k, n, he, hx, -⟩ := SyncNet.ready ok.regular hl hs
      cases he
      cases loop_empty hx.queue (empty hx) hd
      rfl
    | reportErr hs hd =>
      obtain ⟨x, k, n, he, hx, -⟩ := SyncNet.ready ok.regular hl hs
      cases he
      cases loop_empty hx.queue (empty hx) hd
    | ok hs hd =>
      obtain ⟨x, k, n, he, hx, -⟩ := SyncNet.ready ok.regular hl hs
      cases he
      cases loop_empty hx.queue (empty hx) hd

/-- **C53.** So `run_sync` returns the results of all parties unless nobody sends anything in the whole execution. -/
theorem C53_reports_exact (ok : sc.Ok) (rng : sp.Rng) {l : List sp.Id} (hl : sc.g.Enum l)
    {o : Except SyncErr (BMap sp.Id (Report P))} (h : RunSync sc.g.sid (sc.g.nodes l) o) :
    (∃ reports, o = .ok reports ∧ ReportsAll sc reports) ↔ ¬ sc.Silent := by
  rw [← C53_panic_exact ok rng hl h]
  rcases C53_outcome ok rng hl h with ⟨reports, rfl, hr⟩ | ⟨rfl, -⟩
  · exact ⟨fun _ => (by simp), fun _ => ⟨reports, rfl, hr⟩⟩
  · exact ⟨fun ⟨_, h, _⟩ => (by cases h), fun h => absurd rfl h⟩

/-- **C53.** `run_sync` can always run to its end. -/
theorem C53_returns (ok : sc.Ok) (rng : sp.Rng) {l : List sp.Id} (hl : sc.g.Enum l) :
    ∃ o, RunSync sc.g.sid (sc.g.nodes l) o :=
  RunSync.exists ok.regular rng hl

/-- **C53.** There is a bound for the number of messages `run_sync` delivers, whatever the order. -/
theorem C53_terminates (ok : sc.Ok) {l : List sp.Id} (hl : sc.g.Enum l) {x y : SyncState P} {j : Nat}
    (hs : Setup sc.g.sid ⟨Queue.new sp true, BMap.empty⟩ (sc.g.nodes l) (.ok x)) (hd : Delivers j x y) :
    j ≤ sc.g.parties.elems.length * ((sc.g.parties.elems.length + 1) * (4 * sc.n)) := by
  obtain ⟨x', k, n, he, hx, hf, -⟩ := SyncNet.ready ok.regular hl hs
  cases he
  have : ∀ {j : Nat} {x y : SyncState P}, Delivers j x y → ∀ {k : Nat} {n : Net P} {dead : List (Packet sp)},
      SyncNet sc.g k x n dead → x.Full sc.g → k + dead.length + j ≤ sc.steps := by
    intro j x y hd
    induction hd with
    | zero =>
      intro k n dead h _
      have := h.bound ok.regular
      omega
    | succ hq h1 _ ih =>
      intro k n dead h hf
      obtain ⟨_, k', n', dead', he, h', hf', hlt⟩ := h.deliver ok.regular hf hq h1
      cases he
      have := ih h' hf'
      omega
  have := this hd hx hf
  unfold Scheme.steps at this
  omega

theorem filterMap_keys {K A B : Type} {g : K × A → Option (K × B)} (h : ∀ e y, g e = some y → y.1 = e.1) (l : List (K × A)) :
    ((l.filterMap g).map (·.1)).Sublist (l.map (·.1)) := by
  induction l with
  | nil => simp
  | cons e l ih =>
    cases he : g e with
    | none => rw [List.filterMap_cons_none he]; exact ih.cons _
    | some y =>
      rw [List.filterMap_cons_some he, List.map_cons, List.map_cons, h e y he]
      exact ih.cons_cons _

/-- **C53.** `ExecutionResult::results` returns the results if all nodes have one, and otherwise the nodes that have none. -/
theorem C53_execution_results (reports : BMap sp.Id (Report P)) :
    match executionResults reports with
    | .ok results => (∀ i, results.contains i = reports.contains i) ∧
        ∀ i v, results.get? i = some v ↔ ∃ rep, reports.get? i = some rep ∧ rep.outcome = .result v
    | .error failed => failed ≠ [] ∧
        ∀ i, i ∈ failed ↔ ∃ rep, reports.get? i = some rep ∧ ∀ v, rep.outcome ≠ .result v := by
  simp only [executionResults]
  split
  · rename_i results h
    split at h
    · rename_i he
      cases h
      rw [List.isEmpty_iff, List.filterMap_eq_nil_iff] at he
      have hall : ∀ i rep, reports.get? i = some rep → ∃ v, rep.outcome = .result v := by
        intro i rep hr
        have := he (i, rep) (BMap.mem_toList.2 hr)
        revert this
        cases rep.outcome <;> simp
      have hnd := (filterMap_keys (g := fun e : sp.Id × Report P =>
        match e.2.outcome with | .result r => some (e.1, r) | _ => none) (by
          rintro ⟨i, rep⟩ y hy
          revert hy
          cases rep.outcome <;> simp
          rintro rfl; rfl) reports.toList).nodup reports.toList_nodupKeys
      have hget : ∀ i v, (BMap.ofList (reports.toList.filterMap (fun e : sp.Id × Report P =>
          match e.2.outcome with | .result r => some (e.1, r) | _ => none))).get? i = some v ↔
          ∃ rep, reports.get? i = some rep ∧ rep.outcome = .result v := by
        intro i v
        rw [BMap.get?_ofList_nodup hnd, List.mem_filterMap]
        constructor
        · rintro ⟨⟨j, rep⟩, h1, h2⟩
          have h1 := BMap.mem_toList.1 h1
          revert h2
          cases ho : rep.outcome <;> simp
          rintro rfl rfl
          exact ⟨rep, h1, ho⟩
        · rintro ⟨rep, h1, h2⟩
          exact ⟨(i, rep), BMap.mem_toList.2 h1, by simp [h2]⟩
      refine ⟨?_, hget⟩
      intro i
      rw [Bool.eq_iff_iff, BMap.contains_iff, BMap.contains_iff]
      constructor
      · rintro ⟨v, hv⟩
        obtain ⟨rep, h1, -⟩ := (hget i v).1 hv
        exact ⟨rep, h1⟩
      · rintro ⟨rep, h1⟩
        obtain ⟨v, hv⟩ := hall i rep h1
        exact ⟨v, (hget i v).2 ⟨rep, h1, hv⟩⟩
    · cases h
  · rename_i failed h
    split at h
    · cases h
    · rename_i he
      cases h
      refine ⟨by simpa using he, ?_⟩
      intro i
      rw [List.mem_filterMap]
      constructor
      · rintro ⟨⟨j, rep⟩, h1, h2⟩
        have h1 := BMap.mem_toList.1 h1
        revert h2
        cases ho : rep.outcome <;> simp <;> rintro rfl <;> exact ⟨rep, h1, by simp [ho]⟩
      · rintro ⟨rep, h1, h2⟩
        refine ⟨(i, rep), BMap.mem_toList.2 h1, ?_⟩
        cases ho : rep.outcome with
        | result v => exact absurd ho (h2 v)
        | _ => simp [ho]

/-- **C53.** Together: `ExecutionResult::results` of what `run_sync` returns are the results of the parties in an execution of
the protocol. -/
theorem C53_results (ok : sc.Ok) (rng : sp.Rng) {l : List sp.Id} (hl : sc.g.Enum l) {i : sp.Id} (hi : sc.g.parties.contains i = true)
    (hd : (sc.dests 0 i).isEmpty = false) {o : Except SyncErr (BMap sp.Id (Report P))}
    (h : RunSync sc.g.sid (sc.g.nodes l) o) :
    ∃ reports results G, o = .ok reports ∧ executionResults reports = .ok results ∧ Honest sc.g G ∧
      ∀ j, sc.g.parties.contains j = true → ∃ v rng, results.get? j = some v ∧ (G j).length = sc.n ∧
        Finalizes G j rng (.result v) := by
  obtain ⟨reports, rfl, hkeys, G, hG, hrep⟩ := C53_reports ok rng hl hi hd h
  have hx := C53_execution_results reports
  cases he : executionResults reports with
  | error failed =>
    rw [he] at hx
    obtain ⟨h1, h2⟩ := hx
    obtain ⟨j, l', rfl⟩ := List.exists_cons_of_ne_nil h1
    obtain ⟨rep, h3, h4⟩ := (h2 j).1 (List.mem_cons_self ..)
    obtain ⟨-, -, -, -, v, -, h5, -⟩ := hrep j rep h3
    exact absurd h5 (h4 v)
  | ok results =>
    rw [he] at hx
    refine ⟨reports, results, G, rfl, he, hG, ?_⟩
    intro j hj
    rw [← hkeys j] at hj
    obtain ⟨rep, h1⟩ := BMap.contains_iff.1 hj
    obtain ⟨-, -, -, h2, v, rng, h3, h4⟩ := hrep j rep h1
    exact ⟨v, rng, (hx.2 j v).2 ⟨rep, h1, h3⟩, h2, h4⟩

/-! ### Examples -/

/-- An order of three nodes. -/
def demoOrder : List U8 := [3, 1, 2]

theorem demo_enum {echo : Bool} {last : U8} : (demoPlan echo last (BSet.ofList [1, 2, 3])).g.Enum demoOrder := by
  refine ⟨show ([3, 1, 2] : List U8).Nodup by decide, ?_⟩
  intro (i : U8)
  have h : (demoPlan echo last (BSet.ofList [1, 2, 3])).g.parties.contains i = decide (i ∈ ([1, 2, 3] : List U8)) :=
    BSet.contains_ofList (K := U8) [1, 2, 3] i
  rw [h, decide_eq_true_eq]
  show i ∈ ([3, 1, 2] : List U8) ↔ _
  simp only [List.mem_cons, List.not_mem_nil, or_false]
  constructor <;> rintro (h | h | h) <;> simp [h]

/-- The assumptions hold for three parties executing seven rounds with echo broadcasts. -/
example {o : Except SyncErr (BMap toy.Id (Report (demo true 7).wrap))}
    (h : RunSync (demoPlan true 7 (BSet.ofList [1, 2, 3])).g.sid ((demoPlan true 7 (BSet.ofList [1, 2, 3])).g.nodes demoOrder) o) :
    ∃ reports, o = .ok reports ∧ ReportsAll (demoPlan true 7 (BSet.ofList [1, 2, 3])).scheme reports :=
  C53_reports (demo_ok true 7 (by decide)).scheme (0 : Nat) demo_enum (i := (1 : U8)) rfl rfl h

example : ∃ reports, RunSync (demoPlan true 7 (BSet.ofList [1, 2, 3])).g.sid
    ((demoPlan true 7 (BSet.ofList [1, 2, 3])).g.nodes demoOrder) (.ok reports) := by
  obtain ⟨o, h⟩ := C53_returns (demo_ok true 7 (by decide)).scheme (0 : Nat) demo_enum
  obtain ⟨reports, rfl, -⟩ := C53_reports (demo_ok true 7 (by decide)).scheme (0 : Nat) demo_enum (i := (1 : U8)) rfl rfl h
  exact ⟨reports, h⟩

end Manul
