import Verif.Lemmas.RunSyncNet
import Verif.Props.Network

/-! # `run_sync` when nobody sends anything -/

namespace Manul

variable {sp : SP} {P : Proto sp} {g : Group P} {B : Nat} {d : sp.Id → Nat}

theorem AddNode.states {sid : Bytes} {signer : sp.Signer} {ep : EntryPoint P} {x x' : SyncState P}
    (h : AddNode sid signer ep x (.ok x')) : ∃ st, x'.states = x.states.insert (sp.verifyingKey signer) st := by
  cases h with
  | ok => exact ⟨_, rfl⟩

/-- Adding nodes leaves those that are there alone. -/
theorem Setup.keeps (rg : g.Regular B d) {l : List sp.Id} : ∀ {x y : SyncState P}, (∀ i ∈ l, g.parties.contains i = true) →
    Setup g.sid x (g.nodes l) (.ok y) → ∀ {i : sp.Id}, i ∉ l → y.states.get? i = x.states.get? i := by
  induction l with
  | nil =>
    intro x y _ hs i _
    cases hs
    rfl
  | cons j l ih =>
    intro x y hl hs i hi
    cases hs with
    | cons ha hs =>
      obtain ⟨st, he⟩ := ha.states
      rw [ih (fun k hk => hl k (List.mem_cons_of_mem _ hk)) hs (fun g => hi (List.mem_cons_of_mem _ g)), he,
        rg.keys j (hl j (List.mem_cons_self ..)), BMap.get?_insert, if_neg]
      rintro rfl
      exact hi (List.mem_cons_self ..)

/-- If nothing is in the queue at the end, then there was a moment when one of two parties had done all it does, and the other had
not started. -/
theorem SyncNet.setup_pair (rg : g.Regular B d) {i j : sp.Id} (hne : i ≠ j) {l : List sp.Id} : ∀ {k : Nat} {x : SyncState P}
    {n : Net P}, SyncNet g k x n [] → l.Nodup → (∀ i ∈ l, g.parties.contains i = true ∧ x.states.get? i = none) →
    ∀ {y : SyncState P}, Setup g.sid x (g.nodes l) (.ok y) → y.queue.isEmpty = true → i ∈ l → j ∈ l →
    ∃ x1 k1 n1, SyncNet g k1 x1 n1 [] ∧ x1.queue.isEmpty = true ∧
      ((x1.states.get? i = y.states.get? i ∧ x1.states.get? j = none) ∨
        (x1.states.get? j = y.states.get? j ∧ x1.states.get? i = none)) := by
  induction l with
  | nil =>
    intro k x n _ _ _ y _ _ hi
    simp at hi
  | cons m l ih =>
    intro k x n h hnd hl y hs hy hi hj
    rw [List.nodup_cons] at hnd
    obtain ⟨hm, hx⟩ := hl m (List.mem_cons_self ..)
    cases hs with
    | @cons _ x1 _ _ _ _ ha hs =>
      obtain ⟨x2, k1, n1, he, hk, h1, hc, hlen⟩ := h.addNode rg hm hx ha
      cases he
      have hl' : ∀ q ∈ l, g.parties.contains q = true ∧ x1.states.get? q = none := by
        intro q hq
        obtain ⟨hq1, hq2⟩ := hl q (List.mem_cons_of_mem _ hq)
        exact ⟨hq1, absent hc hq2 (by rintro rfl; exact hnd.1 hq)⟩
      obtain ⟨y', k', n', he, h', hc', hlen', hd⟩ := h1.setup rg hnd.2 hl' hs
      cases he
      have hq1 : x1.queue.isEmpty = true := by
        rw [Queue.isEmpty_iff h1.queue, ← List.length_eq_zero_iff]
        rw [(Queue.isEmpty_iff h'.queue).1 hy, List.length_nil] at hlen'
        omega
      have hkeep := (Setup.keeps rg (fun q hq => (hl' q hq).1) hs hnd.1).symm
      by_cases hmi : m = i
      · subst hmi
        have hjl : j ∈ l := (List.mem_cons.1 hj).resolve_left (fun g => hne g.symm)
        exact ⟨x1, k1, n1, h1, hq1, .inl ⟨hkeep, (hl' j hjl).2⟩⟩
      · by_cases hmj : m = j
        · subst hmj
          have hil : i ∈ l := (List.mem_cons.1 hi).resolve_left hne
          exact ⟨x1, k1, n1, h1, hq1, .inr ⟨hkeep, (hl' i hil).2⟩⟩
        · exact ih h1 hnd.2 hl' hs hy ((List.mem_cons.1 hi).resolve_left (fun g => hmi g.symm))
            ((List.mem_cons.1 hj).resolve_left (fun g => hmj g.symm))

variable {sc : Scheme P}

/-- Nobody sends anything in the first part of `run_sync` only if nobody ever expects anything. -/
theorem setup_quiet (ok : sc.Ok) (rng : sp.Rng) {l : List sp.Id} (hl : sc.g.Enum l) {y : SyncState P}
    (hs : Setup sc.g.sid ⟨Queue.new sp true, BMap.empty⟩ (sc.g.nodes l) (.ok y)) (hq : y.queue.isEmpty = true) {t : Nat}
    {i j : sp.Id} (ht : t < 2 * sc.n) (hi : sc.g.parties.contains i = true) (hj : sc.g.parties.contains j = true) (hne : i ≠ j) :
    (sc.xAt t i).contains j = false := by
  rw [Bool.eq_false_iff]
  intro hx
  obtain ⟨y', k', n', he, h', hf, -⟩ := SyncNet.ready ok.regular hl hs
  cases he
  have hall := C59_finishes rng ok h'.takes.reach (h'.stuck hf hq)
  have fin : ∀ m, sc.g.parties.contains m = true → ∃ r, y.states.get? m = some (.finished r) := by
    intro m hm
    obtain ⟨rep, v, h1, -⟩ := hall m hm
    rw [h'.node] at h1
    cases hst : y.states.get? m with
    | none => rw [hst] at h1; cases h1
    | some st =>
      cases st with
      | finished r => exact ⟨r, rfl⟩
      | inProgress s a => rw [hst] at h1; cases h1
  obtain ⟨x1, k1, n1, h1, hq1, hc⟩ := SyncNet.init.setup_pair ok.regular hne hl.1 (fun i hi => ⟨(hl.2 i).1 hi, rfl⟩) hs hq
    ((hl.2 i).2 hi) ((hl.2 j).2 hj)
  obtain ⟨L, e, f, hinv⟩ := Scheme.NetInv.reach ok h1.takes.reach
  have hw : n1.wire = [] := by
    have := h1.wire
    rw [(Queue.isEmpty_iff h1.queue).1 hq1] at this
    simpa using this
  rcases hc with ⟨g1, g2⟩ | ⟨g1, g2⟩
  · obtain ⟨r, hr⟩ := fin i hi
    have n1i : n1.node i = some (.done (.ok r)) := by rw [h1.node, g1, hr]; rfl
    have n1j : n1.node j = none := by rw [h1.node, g2]; rfl
    have h2 := (hinv.done i _ n1i).2.1
    have h3 := hinv.sync i j t hi hx (by omega)
    have h4 := (hinv.idle j n1j).1
    omega
  · obtain ⟨r, hr⟩ := fin j hj
    have n1j : n1.node j = some (.done (.ok r)) := by rw [h1.node, g1, hr]; rfl
    have n1i : n1.node i = none := by rw [h1.node, g2]; rfl
    have h2 := hinv.done j _ n1j
    have h4 := (hinv.idle i n1i).2.1
    obtain ⟨p, hp, -⟩ := hinv.sent i j t hi hx (by omega) (by
      rintro (h5 | ⟨s, a, h5, -⟩)
      · omega
      · rw [n1i] at h5
        cases h5)
    rw [hw] at hp
    simp at hp

end Manul
