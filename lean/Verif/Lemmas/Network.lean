import Verif.Spec.Network
import Verif.Lemmas.Honest
import Verif.Lemmas.Crash

/-! # The network of honest parties: positions, plans and calls of the session -/

namespace Manul

variable {sp : SP} {P : Proto sp}

/-! ### Positions: the sequence of rounds and echo rounds -/

/-- The position after a position; positions are stages with a flag for the echo round. -/
def nextPos (echoAt : Nat → Bool) : Nat × Bool → Nat × Bool
  | (k, false) => if echoAt k then (k, true) else (k + 1, false)
  | (k, true) => (k + 1, false)

/-- The `t`-th position. -/
def pos (echoAt : Nat → Bool) : Nat → Nat × Bool
  | 0 => (0, false)
  | t + 1 => nextPos echoAt (pos echoAt t)

/-- A number increasing with the position. -/
def posCode (q : Nat × Bool) : Nat := 2 * q.1 + (if q.2 then 1 else 0)

theorem posCode_next (echoAt : Nat → Bool) (q : Nat × Bool) : posCode q < posCode (nextPos echoAt q) := by
  obtain ⟨k, b⟩ := q
  cases b <;> simp only [nextPos]
  · split <;> simp [posCode]
  · simp [posCode]
    omega

theorem posCode_mono (echoAt : Nat → Bool) {t t' : Nat} (h : t < t') :
    posCode (pos echoAt t) < posCode (pos echoAt t') := by
  induction t' with
  | zero => omega
  | succ u ih =>
    have h1 := posCode_next echoAt (pos echoAt u)
    rcases Nat.lt_succ_iff_lt_or_eq.1 h with h | rfl
    · exact (ih h).trans h1
    · exact h1

theorem stage_mono (echoAt : Nat → Bool) {t t' : Nat} (h : t ≤ t') : (pos echoAt t).1 ≤ (pos echoAt t').1 := by
  rcases Nat.lt_or_eq_of_le h with h | rfl
  · have := posCode_mono echoAt h
    unfold posCode at this
    split at this <;> split at this <;> omega
  · exact le_rfl

theorem pos_inj (echoAt : Nat → Bool) {t t' : Nat} (h : pos echoAt t = pos echoAt t') : t = t' := by
  rcases Nat.lt_trichotomy t t' with hlt | rfl | hgt
  · have := posCode_mono echoAt hlt
    rw [h] at this
    omega
  · rfl
  · have := posCode_mono echoAt hgt
    rw [h] at this
    omega

/-- An echo position is that of a stage with an echo round. -/
theorem pos_echo {echoAt : Nat → Bool} {t k : Nat} (h : pos echoAt t = (k, true)) : echoAt k = true := by
  cases t with
  | zero => simp [pos] at h
  | succ u =>
    simp only [pos] at h
    generalize pos echoAt u = q at h
    obtain ⟨l, b⟩ := q
    cases b <;> simp only [nextPos] at h
    · split at h
      · rename_i he
        simp only [Prod.mk.injEq, and_true] at h
        rw [← h]
        exact he
      · simp at h
    · simp at h

/-- The round id of a position. -/
def posId (rid : Nat → RoundId) (q : Nat × Bool) : RoundId := ⟨(rid q.1).round, (rid q.1).groups, q.2⟩

theorem posId_inj {rid : Nat → RoundId} {n : Nat} (hids : ∀ k l, k < n → l < n → rid k = rid l → k = l)
    (hne : ∀ k, k < n → (rid k).isEcho = false) {q q' : Nat × Bool} (h1 : q.1 < n) (h2 : q'.1 < n)
    (h : posId rid q = posId rid q') : q = q' := by
  obtain ⟨k, b⟩ := q
  obtain ⟨k', b'⟩ := q'
  simp only [posId, RoundId.mk.injEq] at h
  have e1 := hne k h1
  have e2 := hne k' h2
  have : k = k' := by
    refine hids k k' h1 h2 ?_
    cases hr : rid k
    cases hr' : rid k'
    simp_all
  simp [this, h.2.2]

theorem posId_main {rid : Nat → RoundId} {k : Nat} (h : (rid k).isEcho = false) : posId rid (k, false) = rid k := by
  cases hr : rid k
  simp_all [posId]

theorem posId_echo {rid : Nat → RoundId} {k : Nat} (h : (rid k).isEcho = false) :
    (rid k).echo = .ok (posId rid (k, true)) := by
  simp [RoundId.echo, posId, h]

/-! ### Ghost state -/

/-- A cell together with the signed echo broadcast sent around. -/
structure NCell {sp : SP} (P : Proto sp) extends Cell P where
  sEcho : SignedPart .echo

/-- The ledger of all cells. -/
abbrev Ledger {sp : SP} (P : Proto sp) := sp.Id → List (NCell P)

/-- The history in a ledger. -/
def Ledger.history (L : Ledger P) : History P := fun i => (L i).map NCell.toCell

/-- The second ledger extends the first. -/
def Ledger.Ext (L L' : Ledger P) : Prop := ∀ i (k : Nat) c, (L i)[k]? = some c → (L' i)[k]? = some c

theorem Ledger.Ext.refl (L : Ledger P) : L.Ext L := fun _ _ _ h => h

theorem Ledger.ext_snoc (L : Ledger P) (i : sp.Id) (c : NCell P) : L.Ext (Function.update L i (L i ++ [c])) := by
  intro j k d h
  by_cases e : j = i
  · subst e
    rw [Function.update_self]
    have := (List.getElem?_eq_some_iff.1 h).1
    rw [List.getElem?_append_left this]
    exact h
  · rw [Function.update_of_ne e]
    exact h

theorem Ledger.history_snoc (L : Ledger P) (i : sp.Id) (c : NCell P) :
    Ledger.history (Function.update L i (L i ++ [c])) =
      Function.update L.history i (L.history i ++ [c.toCell]) := by
  funext j
  by_cases e : j = i
  · subst e
    simp [Ledger.history]
  · simp [Ledger.history, Function.update_of_ne e]

theorem Ledger.history_get {L : Ledger P} {i : sp.Id} {k : Nat} {c : NCell P} (h : (L i)[k]? = some c) :
    (L.history i)[k]? = some c.toCell := by
  simp [Ledger.history, h]

namespace Plan

variable (pl : Plan P)

/-- The `t`-th position. -/
abbrev at' (t : Nat) : Nat × Bool := pos pl.echoAt t

/-- The round id of the `t`-th position. -/
abbrev idAt (t : Nat) : RoundId := posId pl.rid (pos pl.echoAt t)

/-- Whom messages are sent to at the `t`-th position. -/
abbrev dAt (t : Nat) (i : sp.Id) : BSet sp.Id := pl.dests (pos pl.echoAt t).1 i

/-- Whom messages are expected from at the `t`-th position. -/
abbrev xAt (t : Nat) (i : sp.Id) : BSet sp.Id := pl.expects (pos pl.echoAt t).1 i

end Plan

theorem PayloadsOf.mono {L L' : Ledger P} (hL : L.Ext L') {i : sp.Id} {k : Nat} {ps : BMap sp.Id P.Payload}
    (h : PayloadsOf L.history i k ps) : PayloadsOf L'.history i k ps := by
  refine ⟨?_, ?_⟩
  · obtain ⟨c, h1, h2⟩ := h.keys
    simp only [Ledger.history, List.getElem?_map, Option.map_eq_some_iff] at h1
    obtain ⟨d, h1, rfl⟩ := h1
    exact ⟨_, Ledger.history_get (hL _ _ _ h1), h2⟩
  intro j v hv
  obtain ⟨ci, cj, p, art, h1, h2, h3, h4⟩ := h.value j v hv
  simp only [Ledger.history, List.getElem?_map, Option.map_eq_some_iff] at h1 h2
  obtain ⟨di, h1, rfl⟩ := h1
  obtain ⟨dj, h2, rfl⟩ := h2
  exact ⟨_, _, p, art, Ledger.history_get (hL _ _ _ h1), Ledger.history_get (hL _ _ _ h2), h3, h4⟩

/-! ### Calls of the session -/

/-- Sending to parties the round can make messages for. -/
theorem sendAll_run (env : sp.EnvOk) {s : Session P} {rng : sp.Rng} {i : Nat} {a : Accum P} {ds : List sp.Id}
    (hn : ds.Nodup) (ha : ∀ d ∈ ds, a.artifacts.contains d = false)
    (hm : ∀ d ∈ ds, ∀ rng, ∃ x, s.round.makeDirect rng d = .ok x) :
    ∃ ws : List (Message sp × Option P.Artifact), ws.map (fun w => w.1.destination) = ds ∧
      (∀ w ∈ ws, Made s w.1.destination w.1 ⟨w.1.destination, w.2⟩) ∧
      sendAll s rng i a ds = .ok
        ({ a with artifacts := ws.foldl (fun m w => m.insert w.1.destination w.2) a.artifacts }, ws.map Prod.fst) := by
  induction ds generalizing i a with
  | nil => exact ⟨[], rfl, by simp, rfl⟩
  | cons d ds ih =>
    obtain ⟨⟨p, v⟩, hd⟩ := hm d (List.mem_cons_self ..) (sp.fork (sp.fork rng i) 0)
    obtain ⟨q, hq⟩ := sign_total env (sp.fork (sp.fork rng i) 1) s.signer s.sessionId s.transition.id p
    have hmk : s.makeMessage (sp.fork rng i) d = .ok (⟨d, q, s.echo, s.normal⟩, ⟨d, v⟩) := by
      simp only [Session.makeMessage, Message.new, hd, hq]
    rw [List.nodup_cons] at hn
    have hc := ha d (List.mem_cons_self ..)
    obtain ⟨ws, h1, h2, h3⟩ := ih (i := i + 1) (a := { a with artifacts := a.artifacts.insert d v }) hn.2 (by
      intro d' hd'
      have hne : d' ≠ d := fun h => hn.1 (h ▸ hd')
      have := ha d' (List.mem_cons_of_mem _ hd')
      simp [hne, this]) (fun d' hd' => hm d' (List.mem_cons_of_mem _ hd'))
    refine ⟨(⟨d, q, s.echo, s.normal⟩, v) :: ws, by simp [h1], ?_, ?_⟩
    · intro w hw
      rcases List.mem_cons.1 hw with rfl | hw
      · exact makeMessage_ok hmk
      · exact h2 w hw
    · simp only [sendAll, hmk, Accum.addArtifact, hc, Bool.false_eq_true, if_false, h3]
      rfl

/-- The accumulator after the message of `x` was accepted. -/
def Accum.accept (a : Accum P) (x : sp.Id) (m : Message sp) (v : Option P.Payload) : Accum P :=
  { a with
    notSent := a.notSent.erase x
    echos := Accum.insertPart a.echos x m.echo
    normals := Accum.insertPart a.normals x m.normal
    directs := Accum.insertPart a.directs x m.direct
    payloads := a.payloads.insert x v }

theorem applyVerified_accepts {s : Session P} {a : Accum P} {x : sp.Id} {m : Message sp} {v : Option P.Payload}
    (hpay : a.payloads.contains x = false) (hns : a.notSent.contains x = true)
    (hr : s.round.receive x (verifiedOf x m).dyn = .ok v) : applyVerified s a (verifiedOf x m) = .ok (a.accept x m v) := by
  simp only [applyVerified, Session.addProcessed, Session.process, Accum.addProcessed]
  have e1 : (verifiedOf x m).sender = x := rfl
  simp only [e1, hpay, hns, hr]
  simp [verifiedOf, Accum.accept]

theorem exists_somes {α β : Type} {l : List (α × Option β)} (h : ∀ w ∈ l, ∃ v, w.2 = some v) :
    ∃ l' : List (α × β), l = l'.map (fun v => (v.1, some v.2)) := by
  induction l with
  | nil => exact ⟨[], rfl⟩
  | cons w l ih =>
    obtain ⟨l', hl⟩ := ih (fun w hw => h w (List.mem_cons_of_mem _ hw))
    obtain ⟨v, hv⟩ := h w (List.mem_cons_self ..)
    refine ⟨(w.1, v) :: l', ?_⟩
    obtain ⟨w1, w2⟩ := w
    simp only at hv
    simp [hl, hv]

/-- The artifacts and direct messages of a round that were made by sending. -/
theorem sent_directs {A : Type} {vs : List (Message sp × A)} (hn : (vs.map (fun v => v.1.destination)).Nodup) :
    ∃ D : BMap sp.Id (Part .direct × A),
      (∀ d x, D.get? d = some x ↔ ∃ v ∈ vs, v.1.destination = d ∧ (v.1.direct.part, v.2) = x) ∧
      downcastAll ((vs.map (fun v => (v.1, some v.2))).foldl (fun m w => m.insert w.1.destination w.2)
        (BMap.empty : BMap sp.Id (Option A))) = .ok (D.mapVal (fun _ x => x.2)) := by
  have n1 : ((vs.map (fun v => (v.1.destination, (v.1.direct.part, v.2)))).map Prod.fst).Nodup := by
    rw [List.map_map]
    exact hn
  have n2 : ((vs.map (fun v => (v.1.destination, some v.2))).map Prod.fst).Nodup := by
    rw [List.map_map]
    exact hn
  have e2 : (vs.map (fun v => (v.1, some v.2))).foldl (fun m w => m.insert w.1.destination w.2)
      (BMap.empty : BMap sp.Id (Option A)) = BMap.ofList (vs.map (fun v => (v.1.destination, some v.2))) := by
    unfold BMap.ofList
    rw [List.foldl_map, List.foldl_map]
  have g1 : ∀ d x, (BMap.ofList (vs.map (fun v => (v.1.destination, (v.1.direct.part, v.2))))).get? d = some x ↔
      ∃ v ∈ vs, v.1.destination = d ∧ (v.1.direct.part, v.2) = x := by
    intro d x
    rw [BMap.get?_ofList_nodup n1]
    simp only [List.mem_map, Prod.mk.injEq]
  refine ⟨_, g1, ?_⟩
  rw [e2]
  obtain ⟨m', h1, h2⟩ := downcastAll_total (m := BMap.ofList (vs.map (fun v => (v.1.destination, some v.2)))) (by
    intro x v hv
    rw [BMap.get?_ofList_nodup n2] at hv
    simp only [List.mem_map, Prod.mk.injEq] at hv
    obtain ⟨w, -, -, rfl⟩ := hv
    exact ⟨_, rfl⟩)
  rw [h1]
  congr 1
  apply BMap.ext
  intro k
  apply Option.ext
  intro w
  rw [h2, BMap.get?_ofList_nodup n2, BMap.get?_mapVal]
  simp only [Option.map_eq_some_iff]
  constructor
  · intro h
    obtain ⟨v, hv, he⟩ := List.mem_map.1 h
    simp only [Prod.mk.injEq, Option.some.injEq] at he
    exact ⟨(v.1.direct.part, v.2), (g1 _ _).2 ⟨v, hv, he.1, rfl⟩, he.2⟩
  · rintro ⟨x, hx, rfl⟩
    obtain ⟨v, hv, he, rfl⟩ := (g1 _ _).1 hx
    exact List.mem_map.2 ⟨v, hv, by simp [he]⟩

namespace Plan

variable {pl : Plan P}

/-- The assumptions about the environment and the protocol. -/
structure Ok (pl : Plan P) : Prop where
  env : sp.EnvOk
  sc : sp.SignCorrect
  srt : sp.SigRoundTrip
  ert : sp.EchoRoundTrip
  keys : pl.g.KeysMatch
  coop : Cooperative pl

theorem others_contains {g : Group P} {i x : sp.Id} : (g.others i).contains x = true ↔ x ≠ i ∧ g.parties.contains x = true := by
  simp [Group.others]

/-- The position after one that is not followed by an echo round. -/
theorem after {t : Nat} (h : (pl.at' (t + 1)).2 = false) : pl.at' (t + 1) = ((pl.at' t).1 + 1, false) := by
  simp only [Plan.at', pos] at *
  generalize pos pl.echoAt t = q at *
  obtain ⟨k, b⟩ := q
  cases b <;> simp only [nextPos] at *
  split at h
  · simp at h
  · rename_i hc
    simp [hc]

theorem sum_update {α : Type} [DecidableEq α] {l : List α} (hl : l.Nodup) {i : α} (hi : i ∈ l) {F G : α → Nat} {c : Nat}
    (hne : ∀ x, x ≠ i → F x = G x) (hlt : F i + c ≤ G i) : (l.map F).sum + c ≤ (l.map G).sum := by
  induction l with
  | nil => simp at hi
  | cons y l ih =>
    rw [List.nodup_cons] at hl
    simp only [List.map_cons, List.sum_cons]
    by_cases hy : y = i
    · subst hy
      have : l.map F = l.map G := by
        apply List.map_congr_left
        intro x hx
        apply hne
        rintro rfl
        exact hl.1 hx
      rw [this]
      omega
    · have := ih hl.2 (by
        rcases List.mem_cons.1 hi with h | h
        · exact absurd h.symm hy
        · exact h)
      have := hne y hy
      omega

end Plan

end Manul
