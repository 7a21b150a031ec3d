import Verif.Lemmas.Scheme
import Verif.Lemmas.Network
import Mathlib.Algebra.Order.BigOperators.Group.List

/-!
# Lemmas about the network with partial participation in echo rounds: the invariant holds, and the network comes to an end
-/

namespace Manul

variable {sp : SP} {P : Proto sp} {sc : Scheme P}

namespace Scheme

/-- The invariant holds at the beginning. -/
theorem NetInv.init : sc.NetInv (fun _ => []) (fun _ => 0) (fun _ => 0) Net.init := by
  refine ⟨⟨Honest.nil, ?_, ?_, ?_, ?_, ?_, ?_, ?_⟩, ?_, ?_, ?_, ?_, ?_, ?_, ?_, ?_⟩ <;> simp [Net.init]

/-- When a party can finalize. -/
theorem AccInv.canFinalize {L : Ledger P} {e : sp.Id → Nat} {i : sp.Id} {t : Nat} {a : Accum P} (ha : sc.AccInv L e i t a) :
    (a.canFinalize = .yes ∧ ∀ x, a.payloads.contains x = (sc.xAt t i).contains x) ∨
      (a.canFinalize = .notYet ∧ ∃ x, (sc.xAt t i).contains x = true ∧ a.payloads.contains x = false) := by
  unfold Accum.canFinalize
  by_cases hall : a.expecting.elems.all (fun k => a.payloads.contains k) = true
  · left
    refine ⟨by simp [hall], ?_⟩
    intro x
    rw [Bool.eq_iff_iff]
    constructor
    · exact fun h => (ha.payKeys x h).1
    · intro h
      rw [List.all_eq_true] at hall
      exact hall x (by rw [BSet.mem_elems, ha.expecting]; exact h)
  · right
    simp only [List.all_eq_true, not_forall] at hall
    obtain ⟨x, hx, hp⟩ := hall
    rw [BSet.mem_elems, ha.expecting] at hx
    have hp' : a.payloads.contains x = false := by simpa using hp
    have hns : a.notSent.contains x = true := by rw [ha.notSent, hx, hp']; rfl
    refine ⟨?_, x, hx, hp'⟩
    have h1 : ¬ (a.expecting.elems.all (fun k => a.payloads.contains k) = true) := by
      rw [List.all_eq_true]
      intro h
      have := h x (by rw [BSet.mem_elems, ha.expecting]; exact hx)
      rw [hp'] at this
      simp at this
    have h2 : a.notSent.isEmpty = false := by
      by_contra hc
      have hc : a.notSent.isEmpty = true := by simpa using hc
      rw [BMap.isEmpty_iff_contains] at hc
      rw [hc] at hns
      simp at hns
    simp [h1, h2]

/-- A party starts. -/
theorem NetInv.starts (ok : sc.Ok) {L : Ledger P} {e f : sp.Id → Nat} {net : Net P} (h : sc.NetInv L e f net) {i : sp.Id}
    (hi : sc.g.parties.contains i = true) (hn : net.node i = none) (rng rng' : sp.Rng) :
    ∃ L' s a out, sc.g.startNode i rng rng' = (.running s a, out) ∧ out.length = (sc.dAt 0 i).elems.length ∧ L.Ext L' ∧
      sc.NetInv L' (Function.update e i 1) (Function.update f i 0) (net.put i (.running s a) out) := by
  obtain ⟨he, hf, hLi⟩ := h.idle i hn
  obtain ⟨r, hr⟩ := ok.coop.start i hi (sp.fork rng 0)
  have hent : Entering sc.g L.history i r := Or.inl ⟨by simp [Ledger.history, hLi], _, hr⟩
  obtain ⟨s, a, c, out, h1, h2, h3, h4, h5, h6, h7, h8, h9⟩ := enterMain ok h.ledger (e := e) hi (t := 0) (k := 0) rfl
    ok.coop.stages (by simp [hLi]) hent (tr := Transcript.new)
    ⟨by simp [Transcript.new], by simp [Transcript.new], rfl, by simp [Transcript.new]⟩ (cs := []) ⟨by simp, by simp⟩
    (sp.fork rng 1) rng'
  refine ⟨_, s, a, out, ?_, by rw [← h8]; simp, L.ext_snoc i c, ?_⟩
  · unfold Group.startNode Session.new
    simp only [ok.keys i hi, hr, h1, start, enterRound, h2]
  · refine h.advance ok hi (L.ext_snoc i c) ?_ h3 (q := 0) (by omega) (by intro t _ ht; omega) h4 h5 ?_ ?_ h6 h8 h9
    · intro x hx
      simp [Function.update_of_ne hx]
    · intro j t _ ht; omega
    · intro j t hj
      unfold Recv
      rw [hf, h7 j]
      simp [hn]

/-- A party goes on. -/
theorem NetInv.ticks (ok : sc.Ok) {L : Ledger P} {e f : sp.Id → Nat} {net : Net P} (h : sc.NetInv L e f net) {i : sp.Id}
    {s : Session P} {a : Accum P} (hn : net.node i = some (.running s a)) (rng : sp.Rng) (hc : a.canFinalize = .yes) :
    (∃ L' s' a' out, finishRound s a rng = (.running s' a', out) ∧ out.length = (sc.dAt (sc.nxt (f i) i) i).elems.length ∧
      L.Ext L' ∧ sc.NetInv L' (Function.update e i (sc.nxt (f i) i + 1)) (Function.update f i (sc.nxt (f i) i))
        (net.put i (.running s' a') out)) ∨
    (∃ r, finishRound s a rng = (.done r, []) ∧ sc.nxt (f i) i = 2 * sc.n ∧
      sc.NetInv L (Function.update e i (2 * sc.n)) (Function.update f i (2 * sc.n)) (net.put i (.done r) [])) := by
  have hi := h.party i _ hn
  obtain ⟨hef, hs, ha⟩ := h.running i s a hn
  have hall : ∀ x, a.payloads.contains x = (sc.xAt (f i) i).contains x := by
    rcases ha.canFinalize with ⟨-, h1⟩ | ⟨h1, -⟩
    · exact h1
    · rw [hc] at h1; simp at h1
  have hlt := lt_nxt (sc := sc) (f i) i
  have hgap : ∀ t, sc.Active t i → t < sc.nxt (f i) i → t < e i := by
    intro t ht hlt
    by_contra hc
    have := nxt_le ht (show f i < t by omega)
    omega
  have hahead : ∀ j t, (sc.xAt t i).contains j = true → t < sc.nxt (f i) i → t < e j := by
    intro j t hj ht
    have hte := hgap t (active_of_expects hj) ht
    by_cases htf : t < f i
    · exact h.sync i j t hi hj htf
    · have heq : t = f i := by omega
      subst heq
      exact (ha.payKeys j (by rw [hall]; exact hj)).2
  have hrecv : ∀ (a' : Accum P), (∀ x, a'.payloads.contains x = true ↔ IsCached a x (sc.idAt (sc.nxt (f i) i))) →
      ∀ j t, (sc.xAt t i).contains j = true →
      (sc.Recv net f i j t ↔ (t < sc.nxt (f i) i ∨ (t = sc.nxt (f i) i ∧ a'.payloads.contains j = true))) := by
    intro a' ha' j t hj
    unfold Recv
    rw [ha' j]
    constructor
    · rintro (h1 | ⟨s1, a1, h1, h2⟩)
      · left; omega
      · rw [hn] at h1
        simp only [Option.some.injEq, RunState.running.injEq] at h1
        obtain ⟨rfl, rfl⟩ := h1
        rcases h2 with ⟨h2, -⟩ | ⟨rfl, h2⟩
        · left; omega
        · right; exact ⟨rfl, h2⟩
    · rintro (h1 | ⟨rfl, h2⟩)
      · have hte := hgap t (active_of_expects hj) h1
        by_cases hlt : t < f i
        · exact Or.inl hlt
        · right
          have heq : t = f i := by omega
          subst heq
          exact ⟨s, a, hn, Or.inl ⟨rfl, by rw [hall]; exact hj⟩⟩
      · exact Or.inr ⟨s, a, hn, Or.inr ⟨rfl, h2⟩⟩
  cases hb : (spot (sc.nxt (f i) i)).2 with
  | true =>
    left
    cases hq : spot (f i) with
    | mk k b =>
      cases b with
      | true =>
        have : spot (sc.nxt (f i) i) = (k + 1, false) := by
          rw [spot_main]
          simp only [nxt, hq]
          omega
        rw [this] at hb
        simp at hb
      | false =>
        have hrun : sc.runsEcho k i = true := by
          by_contra hc
          have : spot (sc.nxt (f i) i) = (k + 1, false) := by
            rw [spot_main]
            simp only [nxt, hq, if_neg hc]
            omega
          rw [this] at hb
          simp at hb
        obtain ⟨s', a', out, h1, h2, h3, h4, h5, h6, h7, h8⟩ := enterEcho ok h.ledger hi hq hrun hs ha hall (sp.fork rng 0) (sp.fork rng 1)
        refine ⟨L, s', a', out, ?_, by rw [← h7]; simp, Ledger.Ext.refl L, ?_⟩
        · simp only [finishRound, h1, enterRound, h2]
        · exact h.advance ok hi (Ledger.Ext.refl L) (fun _ _ => rfl) h.ledger (by omega) hgap h3 h4 hahead (hrecv a' h6) h5 h7 h8
  | false =>
    by_cases hk : (spot (sc.nxt (f i) i)).1 < sc.n
    · left
      obtain ⟨s', a', c, out, h1, h2, h3, h4, h5, h6, h7, h8, h9⟩ :=
        enterNext ok h.ledger hi hb hk hs ha hall (sp.fork rng 0) (sp.fork rng 1)
      refine ⟨_, s', a', out, ?_, by rw [← h8]; simp, L.ext_snoc i c, ?_⟩
      · simp only [finishRound, h1, enterRound, h2]
      · refine h.advance ok hi (L.ext_snoc i c) ?_ h3 (by omega) hgap h4 h5 hahead (hrecv a' h7) h6 h8 h9
        intro x hx
        simp [Function.update_of_ne hx]
    · right
      obtain ⟨h1, rep, v, h2, h3⟩ := finish ok h.ledger hi hb hk hs ha hall (sp.fork rng 0)
      have hend := spot_main.1 h1
      exact ⟨.ok rep, by simp only [finishRound, h2], hend, h.finishes ok hn hend ⟨rep, v, rfl, h3⟩ hall⟩

/-- What is left to do: positions to enter and to finish, and messages to deliver. -/
def left (sc : Scheme P) (e f : sp.Id → Nat) (net : Net P) : Nat :=
  (sc.g.parties.elems.map (fun i => (sc.g.parties.elems.length + 1) * (4 * sc.n - (e i + f i)))).sum + net.wire.length

/-- Nobody goes beyond the end. -/
theorem NetInv.bound {L : Ledger P} {e f : sp.Id → Nat} {net : Net P} (h : sc.NetInv L e f net) (i : sp.Id) :
    e i ≤ 2 * sc.n ∧ f i ≤ 2 * sc.n := by
  cases hn : net.node i with
  | none => obtain ⟨h1, h2, -⟩ := h.idle i hn; omega
  | some st =>
    cases st with
    | running s a =>
      obtain ⟨h1, h2, -⟩ := h.running i s a hn
      have h4 := h2.stage
      rw [spot_lt] at h4
      omega
    | done r =>
      obtain ⟨h1, h2, -⟩ := h.done i r hn
      omega

theorem dests_length (ok : sc.Ok) {i : sp.Id} (hi : sc.g.parties.contains i = true) {t : Nat} (ht : (spot t).1 < sc.n) :
    (sc.dAt t i).elems.length ≤ sc.g.parties.elems.length := by
  apply List.Subperm.length_le
  apply List.subperm_of_subset (BSet.elems_nodup _)
  intro x hx
  rw [BSet.mem_elems] at hx ⊢
  exact (others_contains.1 (ok.coop.pattern.others_at ht hi (Or.inl hx))).2

/-- The invariant is kept by every step, and every step leaves less to do. -/
theorem NetInv.step (ok : sc.Ok) {L : Ledger P} {e f : sp.Id → Nat} {net net' : Net P} (h : sc.NetInv L e f net)
    (hst : NetStep sc.g net net') :
    ∃ L' e' f', L.Ext L' ∧ sc.NetInv L' e' f' net' ∧ sc.left e' f' net' < sc.left e f net := by
  have hadv : ∀ {i : sp.Id} {q : Nat} {L' : Ledger P} {st : RunState P} {out : List (Message sp)}, sc.g.parties.contains i = true →
      out.length = (sc.dAt q i).elems.length →
      sc.NetInv L' (Function.update e i (q + 1)) (Function.update f i q) (net.put i st out) → f i ≤ q → e i ≤ q →
      sc.left (Function.update e i (q + 1)) (Function.update f i q) (net.put i st out) < sc.left e f net := by
    intro i q L' st out hi hout hinv hfe hee
    unfold left
    have hb := hinv.bound i
    simp only [Function.update_self] at hb
    have hl := dests_length ok hi (hinv.entered (j := i) (t := q) (by simp))
    have := Plan.sum_update (c := sc.g.parties.elems.length + 1) (BSet.elems_nodup sc.g.parties) (BSet.mem_elems.2 hi)
      (F := fun x => (sc.g.parties.elems.length + 1) * (4 * sc.n - (Function.update e i (q + 1) x + Function.update f i q x)))
      (G := fun x => (sc.g.parties.elems.length + 1) * (4 * sc.n - (e x + f x))) (by
        intro x hx
        simp [Function.update_of_ne hx]) (by
        simp only [Function.update_self]
        rw [← Nat.mul_succ]
        apply Nat.mul_le_mul_left
        omega)
    simp only [Net.put, List.length_append, List.length_map, hout]
    omega
  cases hst with
  | @start i rng rng' hi hn =>
    obtain ⟨L', s, a, out, h1, h2, h3, h4⟩ := h.starts ok hi hn rng rng'
    obtain ⟨he, hf, -⟩ := h.idle i hn
    refine ⟨L', _, _, h3, by rw [h1]; exact h4, ?_⟩
    rw [h1]
    exact hadv hi h2 h4 (by omega) (by omega)
  | @tick i st st' rng out hn hs =>
    cases st with
    | done r => simp [Manul.step] at hs
    | running s a =>
      obtain ⟨hef, -, ha⟩ := h.running i s a hn
      have hi := h.party i _ hn
      have hlt := lt_nxt (sc := sc) (f i) i
      rcases ha.canFinalize with ⟨hc, -⟩ | ⟨hc, -⟩
      · simp only [Manul.step, hc, Option.some.injEq] at hs
        rcases h.ticks ok hn rng hc with ⟨L', s', a', out', h1, h2, h3, h4⟩ | ⟨r, h1, hend, h4⟩
        · rw [h1] at hs
          simp only [Prod.mk.injEq] at hs
          obtain ⟨rfl, rfl⟩ := hs
          exact ⟨L', _, _, h3, h4, hadv hi h2 h4 (by omega) (by omega)⟩
        · rw [h1] at hs
          simp only [Prod.mk.injEq] at hs
          obtain ⟨rfl, rfl⟩ := hs
          refine ⟨L, _, _, Ledger.Ext.refl L, h4, ?_⟩
          unfold left
          have := Plan.sum_update (c := 1) (BSet.elems_nodup sc.g.parties) (BSet.mem_elems.2 hi)
            (F := fun x => (sc.g.parties.elems.length + 1) *
              (4 * sc.n - (Function.update e i (2 * sc.n) x + Function.update f i (2 * sc.n) x)))
            (G := fun x => (sc.g.parties.elems.length + 1) * (4 * sc.n - (e x + f x))) (by
              intro x hx
              simp [Function.update_of_ne hx]) (by
              simp only [Function.update_self]
              have : (sc.g.parties.elems.length + 1) * (4 * sc.n - (2 * sc.n + 2 * sc.n)) + (sc.g.parties.elems.length + 1) ≤
                  (sc.g.parties.elems.length + 1) * (4 * sc.n - (e i + f i)) := by
                rw [← Nat.mul_succ]
                apply Nat.mul_le_mul_left
                omega
              omega)
          simp only [Net.put, List.length_append, List.length_map, List.length_nil, Nat.add_zero]
          omega
      · simp [Manul.step, hc] at hs
  | @deliver st st' p w w' out hw hn hs =>
    cases st with
    | done r => simp [Manul.step] at hs
    | running s a =>
      obtain ⟨hef, -, ha⟩ := h.running _ s a hn
      rcases ha.canFinalize with ⟨hc, -⟩ | ⟨hc, -⟩
      · simp [Manul.step, hc] at hs
      · obtain ⟨a', h1, h2⟩ := h.receive ok hw hn
        simp only [Manul.step, hc, h1, Option.some.injEq, Prod.mk.injEq] at hs
        obtain ⟨rfl, rfl⟩ := hs
        refine ⟨L, e, f, Ledger.Ext.refl L, h2, ?_⟩
        unfold left
        simp only [Net.put, hw, List.length_append, List.length_cons, List.length_map, List.length_nil]
        omega

/-- A party that is running when no step is possible waits for one that is behind; so there is none. -/
theorem NetInv.stuck (rng : sp.Rng) {L : Ledger P} {e f : sp.Id → Nat} {net : Net P} (h : sc.NetInv L e f net)
    (ok : sc.Ok) (hstuck : ∀ net', ¬ NetStep sc.g net net') {i : sp.Id} (hi : sc.g.parties.contains i = true) :
    ∃ r, net.node i = some (.done r) := by
  have hnone : ∀ j, sc.g.parties.contains j = true → net.node j ≠ none := by
    intro j hj hn
    exact hstuck _ (.start rng rng hj hn)
  have hrun : ∀ k j, sc.g.parties.contains j = true → f j = k → ∀ s a, net.node j ≠ some (.running s a) := by
    intro k
    induction k using Nat.strongRecOn with
    | ind k ih =>
      intro j hj hk s a hn
      obtain ⟨hef, hs, ha⟩ := h.running j s a hn
      rcases ha.canFinalize with ⟨hc, -⟩ | ⟨hc, x, hx, hp⟩
      · exact hstuck _ (.tick (rng := rng) hn (by simp only [Manul.step, hc]; rfl))
      · have hxp := (others_contains.1 (ok.coop.pattern.others_at hs.stage hj (Or.inr hx))).2
        have hle : e x ≤ f j := by
          by_contra hlt
          have hnr : ¬ sc.Recv net f j x (f j) := by
            rintro (h1 | ⟨s', a', h1, h2⟩)
            · omega
            · rw [hn] at h1
              simp only [Option.some.injEq, RunState.running.injEq] at h1
              obtain ⟨rfl, rfl⟩ := h1
              rcases h2 with ⟨-, h2⟩ | ⟨h2, -⟩
              · rw [hp] at h2; simp at h2
              · have := lt_nxt (sc := sc) (f j) j
                omega
          obtain ⟨p, hpw, h1, h2, h3⟩ := h.sent j x (f j) hj hx (by omega) hnr
          obtain ⟨w, w', hw⟩ := List.append_of_mem hpw
          have hn' : net.node p.dest = some (.running s a) := by rw [h2]; exact hn
          obtain ⟨a', h4, -⟩ := h.receive ok hw hn'
          exact hstuck _ (.deliver hw hn' (by simp only [Manul.step, hc, h4]; rfl))
        cases hnx : net.node x with
        | none => exact hnone x hxp hnx
        | some st =>
          cases st with
          | running s' a' =>
            have := (h.running x s' a' hnx).1
            exact ih (f x) (by omega) x hxp rfl s' a' hnx
          | done r =>
            obtain ⟨h1, h2, -⟩ := h.done x r hnx
            have h3 := hs.stage
            rw [spot_lt] at h3
            omega
  cases hn : net.node i with
  | none => exact absurd hn (hnone i hi)
  | some st =>
    cases st with
    | running s a => exact absurd hn (hrun _ i hi rfl s a)
    | done r => exact ⟨r, rfl⟩

/-- The invariant holds for all states the network can reach. -/
theorem NetInv.reach (ok : sc.Ok) {net : Net P} (h : NetReach sc.g net) : ∃ L e f, sc.NetInv L e f net := by
  induction h with
  | init => exact ⟨_, _, _, NetInv.init⟩
  | step _ hs ih =>
    obtain ⟨L, e, f, h⟩ := ih
    obtain ⟨L', e', f', -, h', -⟩ := h.step ok hs
    exact ⟨L', e', f', h'⟩

/-- There are only so many steps. -/
theorem NetInv.takes (ok : sc.Ok) {k : Nat} {net : Net P} (h : NetTakes sc.g k net) :
    ∃ L e f, sc.NetInv L e f net ∧ k + sc.left e f net ≤ sc.g.parties.elems.length * ((sc.g.parties.elems.length + 1) * (4 * sc.n)) := by
  induction h with
  | init =>
    refine ⟨_, _, _, NetInv.init, ?_⟩
    simp [left, Net.init]
  | step _ hs ih =>
    obtain ⟨L, e, f, h, hk⟩ := ih
    obtain ⟨L', e', f', -, h', hl⟩ := h.step ok hs
    exact ⟨L', e', f', h', by omega⟩

/-- What the invariant says of a party. -/
theorem NetInv.clean {L : Ledger P} {e f : sp.Id → Nat} {net : Net P} (h : sc.NetInv L e f net) {i : sp.Id}
    {st : RunState P} (hn : net.node i = some st) : Clean st := by
  cases st with
  | running s a =>
    obtain ⟨-, hs, ha⟩ := h.running i s a hn
    refine ⟨?_, by rw [hs.transcript.missing]; rfl⟩
    intro x
    rintro (⟨y, h1⟩ | ⟨y, h1⟩ | ⟨y, h1⟩ | ⟨y, h1⟩)
    · rw [hs.transcript.provable] at h1; simp at h1
    · rw [hs.transcript.unprovable] at h1; simp at h1
    · rw [ha.provable] at h1; simp at h1
    · rw [ha.unprovable] at h1; simp at h1
  | done r =>
    obtain ⟨-, -, ⟨rep, v, h1, h2, h3, h4, h5, -⟩, -⟩ := h.done i r hn
    exact ⟨rep, v, h1, h2, h3, h4, h5⟩

end Scheme

end Manul
