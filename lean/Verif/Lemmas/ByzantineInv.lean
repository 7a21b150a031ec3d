import Verif.Lemmas.Byzantine

/-! # The network with parties that do not follow the protocol: the invariant holds -/

namespace Manul

variable {sp : SP} {P : Proto sp}

namespace Byz

/-- Party `d`, still running, has got the message of `j` for position `t`. -/
def Recv (z : Byz P) (net : Net P) (e : sp.Id → Nat) (d j : sp.Id) (t : Nat) : Prop :=
  ∃ s a, net.node d = some (.running s a) ∧ (t + 1 < e d ∨ (t + 1 = e d ∧ a.payloads.contains j = true) ∨
    (t = e d ∧ IsCached a j (z.pl.idAt t)))

/-- What a party that has finished may report. -/
structure DoneOk (z : Byz P) (G : History P) (e : sp.Id → Nat) (i : sp.Id) (rep : Report P) : Prop where
  provable : ∀ x, z.H x → rep.provable.get? x = none
  unprovable : ∀ x, z.H x → rep.unprovable.get? x = none
  missing : rep.missing = BMap.empty
  result : ∀ v, rep.outcome = .result v → ∃ rng, FinalizesAmong z.H G i rng (.result v)
  last : ∀ v, rep.outcome = .result v → (z.pl.at' (e i)).1 = (G i).length

/-- The message of `j` to `d` for position `t` is on the wire. -/
def Sent (z : Byz P) (net : Net P) (d j : sp.Id) (t : Nat) : Prop :=
  ∃ p ∈ net.wire, p.src = j ∧ p.dest = d ∧ p.message.direct.metadata.roundId = z.pl.idAt t

/-- Two packets of a party following the protocol are different. -/
def Differ (z : Byz P) (p q : Packet sp) : Prop :=
  ¬ (z.H p.src ∧ p.src = q.src ∧ p.dest = q.dest ∧ p.message.direct.metadata.roundId = q.message.direct.metadata.roundId)

theorem Differ.symm {z : Byz P} {p q : Packet sp} (h : z.Differ p q) : z.Differ q p := by
  rintro ⟨h1, h2, h3, h4⟩
  exact h ⟨by rw [← h2]; exact h1, h2.symm, h3.symm, h4.symm⟩

/-- The invariant of the network: `G` is what the parties following the protocol have done, `e` counts the positions they have
entered. -/
structure NetInv (z : Byz P) (G : History P) (e : sp.Id → Nat) (net : Net P) : Prop where
  history : z.HistOk G
  idle : ∀ i, net.node i = none → e i = 0 ∧ G i = []
  who : ∀ i st, net.node i = some st → z.H i
  running : ∀ i s a, net.node i = some (.running s a) → ∃ t, e i = t + 1 ∧ z.SessInv G i t s ∧ z.AccInv G e i t a
  done : ∀ i rep, net.node i = some (.done (.ok rep)) → z.DoneOk G e i rep
  entered : ∀ i t, t < e i → (z.pl.at' t).1 < z.pl.n
  sync : ∀ i j t, z.H i → z.H j → (z.pl.xAt t i).contains j = true → t + 1 < e i → t < e j
  wire : ∀ p ∈ net.wire, z.H p.src → ∃ t, t < e p.src ∧ (z.pl.dAt t p.src).contains p.dest = true ∧
    z.MsgAt G p.src p.dest t p.message ∧ ¬ z.Recv net e p.dest p.src t
  fair : ∀ p ∈ net.wire, ¬ z.H p.src → z.Fair p.src p.message
  differ : net.wire.Pairwise z.Differ
  sent : ∀ d j t, z.H d → z.H j → t < e j → (z.pl.dAt t j).contains d = true →
    z.Sent net d j t ∨ z.Recv net e d j t ∨ ∃ r, net.node d = some (.done r)

variable {z : Byz P}

theorem NetInv.init : z.NetInv (fun _ => []) (fun _ => 0) Net.init := by
  refine ⟨⟨HonestAmong.nil, ?_, ?_, ?_, ?_, ?_⟩, ?_, ?_, ?_, ?_, ?_, ?_, ?_, ?_, ?_, ?_⟩ <;> simp [Net.init]

theorem FinalizesAmong.mono {H : sp.Id → Prop} {G G' : History P} (hG : HExt G G') {i : sp.Id} (hi : G' i = G i) {rng : sp.Rng}
    {o : Outcome P.Rd P.Result} (h : FinalizesAmong H G i rng o) : FinalizesAmong H G' i rng o := by
  obtain ⟨k, c, ps, h1, h2, h3, h4⟩ := h
  exact ⟨k, c, ps, by rw [hi]; exact h1, by rw [hi]; exact h2, h3.mono hG, h4⟩

theorem DoneOk.mono {G G' : History P} (hG : HExt G G') {e e' : sp.Id → Nat} {i : sp.Id} (hi : G' i = G i) (he : e' i = e i)
    {rep : Report P} (h : z.DoneOk G e i rep) : z.DoneOk G' e' i rep := by
  obtain ⟨h1, h2, h3, h4, h5⟩ := h
  refine ⟨h1, h2, h3, ?_, by rw [hi, he]; exact h5⟩
  intro v hv
  obtain ⟨rng, h5⟩ := h4 v hv
  exact ⟨rng, FinalizesAmong.mono hG hi h5⟩

theorem dest_symm (ok : z.Ok) {t : Nat} (hst : (z.pl.at' t).1 < z.pl.n) {i d : sp.Id} (hi : z.H i)
    (h : (z.pl.dAt t i).contains d = true) : d ≠ i ∧ (z.H d → (z.pl.xAt t d).contains i = true) := by
  have hip := ok.rob.members i hi
  refine ⟨(Plan.others_contains.1 (ok.rob.pattern.dests _ _ _ hst hip h)).1, ?_⟩
  intro hd
  have := ok.rob.pattern.matched _ _ _ hst hip (ok.rob.members d hd)
  simp only [Plan.xAt]
  rw [← this]
  exact h

/-- The messages from one party to another have different ids. -/
theorem NetInv.ids (ok : z.Ok) {G : History P} {e : sp.Id → Nat} {net : Net P} (h : z.NetInv G e net) {i j : sp.Id}
    {t t' : Nat} (ht : t < e i) (ht' : t' < e j) (hid : z.pl.idAt t = z.pl.idAt t') : t = t' :=
  pos_inj _ (posId_inj ok.rob.ids ok.rob.notEcho (h.entered _ _ ht) (h.entered _ _ ht') hid)

/-- Nobody has got a message that was not sent. -/
theorem NetInv.unsent {G : History P} {e : sp.Id → Nat} {net : Net P} (h : z.NetInv G e net) {d i : sp.Id} (hi : z.H i)
    (hx : z.H d → (z.pl.xAt (e i) d).contains i = true) : ¬ z.Recv net e d i (e i) := by
  rintro ⟨s, a, hn, hc⟩
  have hd := h.who d _ hn
  obtain ⟨t, he, hs, ha⟩ := h.running d s a hn
  rcases hc with hc | ⟨hc, hp⟩ | ⟨hc, en, vm, h1, h2⟩
  · have := h.sync d i (e i) hd hi (hx hd) hc
    omega
  · rw [contains_isSome] at hp
    have := ((ha.loc i).honest hi).ahead hp
    omega
  · have := (((ha.loc i).honest hi).cached en _ vm h1 h2).2.2.1
    omega

/-- A party ends; messages to it may disappear. -/
theorem NetInv.halts {G : History P} {e : sp.Id → Nat} {net : Net P} (h : z.NetInv G e net) {i : sp.Id} (hi : z.H i)
    {w : List (Packet sp)} (hsub : w.Sublist net.wire) (hw : ∀ p ∈ net.wire, p.dest ≠ i → p ∈ w)
    {r : Except LErr (Report P)} (hr : ∀ rep, r = .ok rep → z.DoneOk G e i rep) :
    z.NetInv G e (Net.put ⟨net.node, w⟩ i (.done r) []) := by
  have hnode : ∀ x, x ≠ i → (Net.put ⟨net.node, w⟩ i (.done r) []).node x = net.node x := by
    intro x hx
    simp [Net.put, Function.update_of_ne hx]
  have hnodei : (Net.put ⟨net.node, w⟩ i (.done r) []).node i = some (.done r) := by simp [Net.put]
  have hwire : (Net.put ⟨net.node, w⟩ i (.done r) []).wire = w := by simp [Net.put]
  refine ⟨h.history, ?_, ?_, ?_, ?_, h.entered, h.sync, ?_, ?_, ?_, ?_⟩
  · intro x hx
    by_cases hxi : x = i
    · subst hxi; rw [hnodei] at hx; simp at hx
    · rw [hnode x hxi] at hx; exact h.idle x hx
  · intro x st hx
    by_cases hxi : x = i
    · subst hxi; exact hi
    · rw [hnode x hxi] at hx; exact h.who x st hx
  · intro x s a hx
    by_cases hxi : x = i
    · subst hxi; rw [hnodei] at hx; simp at hx
    · rw [hnode x hxi] at hx; exact h.running x s a hx
  · intro x rep hx
    by_cases hxi : x = i
    · subst hxi
      rw [hnodei] at hx
      simp only [Option.some.injEq, RunState.done.injEq] at hx
      exact hr rep hx
    · rw [hnode x hxi] at hx; exact h.done x rep hx
  · intro p hp hsrc
    rw [hwire] at hp
    obtain ⟨t, h1, h2, h3, h4⟩ := h.wire p (hsub.subset hp) hsrc
    refine ⟨t, h1, h2, h3, ?_⟩
    rintro ⟨s, a, hn, hc⟩
    by_cases hxi : p.dest = i
    · rw [hxi, hnodei] at hn; simp at hn
    · rw [hnode _ hxi] at hn
      exact h4 ⟨s, a, hn, hc⟩
  · rw [hwire]; exact fun p hp => h.fair p (hsub.subset hp)
  · rw [hwire]; exact h.differ.sublist hsub
  · intro d j t hd hj ht hdj
    by_cases hdi : d = i
    · subst hdi; exact Or.inr (Or.inr ⟨r, hnodei⟩)
    · rcases h.sent d j t hd hj ht hdj with ⟨p, hp, h1, h2, h3⟩ | ⟨s, a, hn, hc⟩ | ⟨r', hn⟩
      · exact Or.inl ⟨p, by rw [hwire]; exact hw p hp (by rw [h2]; exact hdi), h1, h2, h3⟩
      · exact Or.inr (Or.inl ⟨s, a, by rw [hnode d hdi]; exact hn, hc⟩)
      · exact Or.inr (Or.inr ⟨r', by rw [hnode d hdi]; exact hn⟩)

/-- A party ends. -/
theorem NetInv.halt {G : History P} {e : sp.Id → Nat} {net : Net P} (h : z.NetInv G e net) {i : sp.Id} (hi : z.H i)
    {r : Except LErr (Report P)} (hr : ∀ rep, r = .ok rep → z.DoneOk G e i rep) : z.NetInv G e (net.put i (.done r) []) :=
  h.halts hi (List.Sublist.refl _) (fun _ hp _ => hp) hr

/-- A party enters a position. -/
theorem NetInv.advance (ok : z.Ok) {G G' : History P} {e : sp.Id → Nat} {net : Net P} (h : z.NetInv G e net) {i : sp.Id}
    (hi : z.H i) (hext : HExt G G') (hoth : ∀ x, x ≠ i → G' x = G x) (hG' : z.HistOk G')
    {s : Session P} {a : Accum P} {out : List (Message sp)} (hs : z.SessInv G' i (e i) s) (ha : z.AccInv G' e i (e i) a)
    (hahead : ∀ j, z.H j → ∀ t, t + 1 = e i → (z.pl.xAt t i).contains j = true → t < e j)
    (hrecv : ∀ j t, z.H j → (z.pl.xAt t i).contains j = true → (t < e i ∨ (t = e i ∧ a.payloads.contains j = true)) →
      z.Recv net e i j t)
    (hcached : a.cached = BMap.empty) (hlive : ∀ r, net.node i ≠ some (.done r))
    (hcon : ∀ j s₀ a₀, z.H j → net.node i = some (.running s₀ a₀) → IsCached a₀ j (z.pl.idAt (e i)) → a.payloads.contains j = true)
    (hout : out.map (fun m => m.destination) = (z.pl.dAt (e i) i).elems) (hmsg : ∀ m ∈ out, z.MsgAt G' i m.destination (e i) m) :
    z.NetInv G' (Function.update e i (e i + 1)) (net.put i (.running s a) out) := by
  have hee : ∀ x, e x ≤ Function.update e i (e i + 1) x := by
    intro x
    by_cases hx : x = i
    · subst hx; simp
    · simp [Function.update_of_ne hx]
  have hnode : ∀ x, x ≠ i → (net.put i (.running s a) out).node x = net.node x := by
    intro x hx
    simp [Net.put, Function.update_of_ne hx]
  have hnodei : (net.put i (.running s a) out).node i = some (.running s a) := by simp [Net.put]
  have hdests : ∀ m ∈ out, (z.pl.dAt (e i) i).contains m.destination = true := by
    intro m hm
    rw [← BSet.mem_elems, ← hout]
    exact List.mem_map_of_mem hm
  have hst : (z.pl.at' (e i)).1 < z.pl.n := hs.stage
  -- reception is unchanged
  have hr : ∀ d j t, z.H j → (z.H d → (z.pl.xAt t d).contains j = true) →
      z.Recv (net.put i (.running s a) out) (Function.update e i (e i + 1)) d j t → z.Recv net e d j t := by
    rintro d j t hj hx ⟨s', a', hn, hc⟩
    by_cases hdi : d = i
    · subst hdi
      rw [hnodei] at hn
      simp only [Option.some.injEq, RunState.running.injEq] at hn
      obtain ⟨rfl, rfl⟩ := hn
      rw [Function.update_self] at hc
      apply hrecv j t hj (hx hi)
      rcases hc with hc | ⟨hc, hp⟩ | ⟨hc, en, vm, h1, -⟩
      · left; omega
      · right; exact ⟨by omega, hp⟩
      · rw [hcached] at h1; simp at h1
    · rw [hnode d hdi] at hn
      rw [Function.update_of_ne hdi] at hc
      exact ⟨s', a', hn, hc⟩
  refine ⟨hG', ?_, ?_, ?_, ?_, ?_, ?_, ?_, ?_, ?_, ?_⟩
  · intro x hx
    by_cases hxi : x = i
    · subst hxi; rw [hnodei] at hx; simp at hx
    · rw [hnode x hxi] at hx
      rw [Function.update_of_ne hxi, hoth x hxi]
      exact h.idle x hx
  · intro x st hx
    by_cases hxi : x = i
    · subst hxi; exact hi
    · rw [hnode x hxi] at hx
      exact h.who x st hx
  · intro x s' a' hx
    by_cases hxi : x = i
    · subst hxi
      rw [hnodei] at hx
      simp only [Option.some.injEq, RunState.running.injEq] at hx
      obtain ⟨rfl, rfl⟩ := hx
      exact ⟨e x, by rw [Function.update_self], hs, ha.mono (HExt.refl _) hee rfl⟩
    · rw [hnode x hxi] at hx
      obtain ⟨t, h1, h2, h3⟩ := h.running x s' a' hx
      refine ⟨t, by rw [Function.update_of_ne hxi]; exact h1, h2.mono hext (hoth x hxi), h3.mono hext hee (hoth x hxi)⟩
  · intro x r hx
    by_cases hxi : x = i
    · subst hxi
      rw [hnodei] at hx
      simp at hx
    · rw [hnode x hxi] at hx
      exact (h.done x r hx).mono hext (hoth x hxi) (by rw [Function.update_of_ne hxi])
  · intro x t ht
    by_cases hxi : x = i
    · subst hxi
      rw [Function.update_self] at ht
      exact lt_of_le_of_lt (stage_mono _ (by omega)) hst
    · rw [Function.update_of_ne hxi] at ht
      exact h.entered x t ht
  · intro x y t hx hy hxy ht
    refine lt_of_lt_of_le ?_ (hee y)
    by_cases hxi : x = i
    · subst hxi
      rw [Function.update_self] at ht
      by_cases htt : t + 1 < e x
      · exact h.sync x y t hx hy hxy htt
      · exact hahead y hy t (by omega) hxy
    · rw [Function.update_of_ne hxi] at ht
      exact h.sync x y t hx hy hxy ht
  · intro p hp hsrc
    simp only [Net.put, List.mem_append, List.mem_map] at hp
    rcases hp with hp | ⟨m, hm, rfl⟩
    · obtain ⟨t, h1, h2, h3, h4⟩ := h.wire p hp hsrc
      refine ⟨t, lt_of_lt_of_le h1 (hee _), h2, h3.mono hext, ?_⟩
      intro hc
      exact h4 (hr _ _ _ hsrc (dest_symm ok (h.entered _ _ h1) hsrc h2).2 hc)
    · refine ⟨e i, by simp, hdests m hm, hmsg m hm, ?_⟩
      intro hc
      have hsym := (dest_symm ok hst hi (hdests m hm)).2
      exact h.unsent hi hsym (hr _ _ _ hi hsym hc)
  · intro p hp hsrc
    simp only [Net.put, List.mem_append, List.mem_map] at hp
    rcases hp with hp | ⟨m, hm, rfl⟩
    · exact h.fair p hp hsrc
    · exact absurd hi hsrc
  · simp only [Net.put]
    rw [List.pairwise_append]
    refine ⟨h.differ, ?_, ?_⟩
    · rw [List.pairwise_map]
      have hnd : (out.map (fun m => m.destination)).Nodup := by rw [hout]; exact BSet.elems_nodup _
      have hnd' := List.pairwise_map.1 hnd
      refine hnd'.imp ?_
      rintro m m' hne ⟨-, -, h1, -⟩
      exact hne h1
    · intro p hp q hq
      obtain ⟨m, hm, rfl⟩ := List.mem_map.1 hq
      rintro ⟨h1, h2, -, h4⟩
      obtain ⟨t, g1, g2, g3, -⟩ := h.wire p hp h1
      rw [g3.roundId, (hmsg m hm).roundId] at h4
      have := pos_inj _ (posId_inj ok.rob.ids ok.rob.notEcho (h.entered _ _ g1) hst h4)
      simp only at h2
      rw [h2] at g1
      omega
  · intro d j t hd hj ht hdj
    have hw : ∀ p ∈ net.wire, p ∈ (net.put i (.running s a) out).wire := by
      intro p hp
      simp only [Net.put, List.mem_append]
      exact Or.inl hp
    by_cases hnew : j = i ∧ t = e i
    · obtain ⟨rfl, rfl⟩ := hnew
      left
      rw [← BSet.mem_elems, ← hout] at hdj
      obtain ⟨m, hm, hmd⟩ := List.mem_map.1 hdj
      refine ⟨⟨j, m.destination, m⟩, ?_, rfl, hmd, (hmsg m hm).roundId⟩
      simp only [Net.put, List.mem_append, List.mem_map]
      exact Or.inr ⟨m, hm, rfl⟩
    · have ht' : t < e j := by
        by_cases hji : j = i
        · subst hji
          rw [Function.update_self] at ht
          have : t ≠ e j := fun h => hnew ⟨rfl, h⟩
          omega
        · rwa [Function.update_of_ne hji] at ht
      rcases h.sent d j t hd hj ht' hdj with ⟨p, hp, h1, h2, h3⟩ | ⟨s', a', hn, hc⟩ | ⟨r', hn⟩
      · exact Or.inl ⟨p, hw p hp, h1, h2, h3⟩
      · right; left
        by_cases hdi : d = i
        · subst hdi
          refine ⟨s, a, hnodei, ?_⟩
          rw [Function.update_self]
          rcases hc with hc | ⟨hc, hp⟩ | ⟨hc, hcc⟩
          · left; omega
          · left; omega
          · right; left
            refine ⟨by omega, hcon j s' a' hj hn ?_⟩
            rw [← hc]
            exact hcc
        · refine ⟨s', a', by rw [hnode d hdi]; exact hn, ?_⟩
          rw [Function.update_of_ne hdi]
          exact hc
      · by_cases hdi : d = i
        · subst hdi
          exact absurd hn (hlive r')
        · exact Or.inr (Or.inr ⟨r', by rw [hnode d hdi]; exact hn⟩)

/-- From the third position on, messages are sent only to those heard from at the position before. -/
theorem heard (ok : z.Ok) {t : Nat} (ht : 2 ≤ t) (hst : (z.pl.at' t).1 < z.pl.n) {i j : sp.Id} (hi : z.H i)
    (hj : (z.pl.dAt t i).contains j = true) : (z.pl.xAt (t - 1) i).contains j = true := by
  have pat := ok.rob.pattern
  have hi := ok.rob.members i hi
  obtain ⟨u, rfl⟩ : ∃ u, t = u + 1 := ⟨t - 1, by omega⟩
  rw [Nat.add_sub_cancel]
  have hoth := pat.dests _ _ _ hst hi hj
  cases hq : z.pl.at' u with
  | mk k b =>
    have hq0 : pos z.pl.echoAt u = (k, b) := hq
    simp only [Plan.xAt, hq0]
    have hk1 : k ≤ (z.pl.at' (u + 1)).1 := by
      have := stage_mono z.pl.echoAt (Nat.le_succ u)
      rw [hq0] at this
      exact this
    cases b with
    | true => rw [pat.echoExpects k i (by omega) (pos_echo hq0) hi]; exact hoth
    | false =>
      cases hek : z.pl.echoAt k with
      | true => rw [pat.echoExpects k i (by omega) hek hi]; exact hoth
      | false =>
        have hq1 : pos z.pl.echoAt (u + 1) = (k + 1, false) := by simp [pos, hq0, nextPos, hek]
        simp only [Plan.dAt, Plan.at', hq1] at hj hst
        refine pat.window k i j ?_ hst hi hj
        rcases Nat.eq_zero_or_pos k with hz | hz
        · exfalso
          have := posCode_mono z.pl.echoAt (show 0 < u by omega)
          rw [hq0] at this
          simp [posCode, pos, hz] at this
        · exact hz

/-- The messages of parties following the protocol are accepted or kept. -/
theorem accepts (ok : z.Ok) {G : History P} {e : sp.Id → Nat} {net : Net P} (h : z.NetInv G e net) {d x : sp.Id} {m : Message sp}
    {s : Session P} {a : Accum P} (hn : net.node d = some (.running s a)) {t : Nat} (he : e d = t + 1) (hs : z.SessInv G d t s)
    (ha : z.AccInv G e d t a) (hx : z.H x) {u : Nat} (hu : u < e x) (hd : (z.pl.dAt u x).contains d = true)
    (hm : z.MsgAt G x d u m) (hnr : ¬ z.Recv net e d x u) :
    ∃ a', Manul.deliver s a x m = .ok a' ∧ a'.unprovable.get? x = none ∧ (u = t ∨ u = t + 1) ∧ (z.pl.xAt u d).contains x = true ∧
      (a'.payloads.contains x = true → u = t ∨ a.payloads.contains x = true) ∧
      (∀ r, IsCached a' x r → r = z.pl.idAt u ∨ IsCached a x r) ∧
      (u = t → a'.payloads.contains x = true) ∧ (u = t + 1 → IsCached a' x (z.pl.idAt u)) ∧
      (a.payloads.contains x = true → a'.payloads.contains x = true) ∧ (∀ r, IsCached a x r → IsCached a' x r) := by
  have hdH := h.who d _ hn
  have rob := ok.rob
  have hst0 := h.entered _ _ hu
  have hsrc := (dest_symm ok hst0 hx hd).2 hdH
  have hlow : t ≤ u := by
    by_contra hc
    exact hnr ⟨s, a, hn, Or.inl (by omega)⟩
  have hhigh : u ≤ t + 1 := by
    rcases Nat.lt_or_ge u 2 with hlt | hge
    · omega
    · have hback := heard ok hge hst0 hx hd
      have h4 := h.sync x d (u - 1) hx hdH hback (by omega)
      omega
  have hau := hm.authentic
  rw [← hs.sid] at hau
  have hwf : EchoWellFormed s := by
    intro hsome
    cases hr : s.round with
    | echo er => simp [echo_echoInfo hs.proper hr] at hsome
    | main r =>
      rw [hs.rid]
      cases hq : z.pl.at' t with
      | mk k b =>
        cases b with
        | false => simp only [Plan.idAt, posId, show pos z.pl.echoAt t = _ from hq]
        | true =>
          obtain ⟨c, er, -, h2, -⟩ := hs.round.echo k hq
          rw [hr] at h2
          simp at h2
  have hh := (ha.loc x).honest hx
  have hne : ¬ HasError s a x := by
    rintro (⟨y, h1⟩ | ⟨y, h1⟩ | ⟨y, h1⟩ | ⟨y, h1⟩)
    · rw [hs.transcript.provable x hx] at h1; simp at h1
    · rw [hs.transcript.unprovable x hx] at h1; simp at h1
    · rw [show a.provable.get? x = none from hh.provable] at h1; simp at h1
    · rw [show a.unprovable.get? x = none from hh.unprovable] at h1; simp at h1
  rcases Nat.eq_or_lt_of_le hlow with heq | hlt
  · subst heq
    have hpay : a.payloads.contains x = false := by
      by_contra hc
      exact hnr ⟨s, a, hn, Or.inr (Or.inl ⟨by omega, by simpa using hc⟩)⟩
    obtain ⟨v, hv, hpv⟩ := receives ok h.history hdH hx hsrc hs hm
    have hpn : (a.loc x).payload.isSome = false := by rw [contains_isSome] at hpay; exact hpay
    have hacc := deliver_accepts ok.mt hwf (a := a) (x := x) (m := m) (v := v) (by rw [hs.rid]; exact hau) hne
      (by
        by_contra hc
        have hc : BMap.contains a.processing x = true := by simpa using hc
        have := hh.processing hc
        rw [hpn] at this
        simp at this) hpay (by
        have := hh.notSent
        rw [hsrc, hpn] at this
        exact this) hv
    refine ⟨_, hacc, hh.unprovable, Or.inl rfl, hsrc, fun _ => Or.inl rfl, fun r hr => Or.inr hr, ?_, by omega, ?_, fun r hr => hr⟩
    · intro _; simp
    · intro _; simp
  · have heq : u = t + 1 := by omega
    subst heq
    have hnc : ¬ IsCached a x (z.pl.idAt (t + 1)) := by
      intro hc
      exact hnr ⟨s, a, hn, Or.inr (Or.inr ⟨by omega, hc⟩)⟩
    have hdiff : z.pl.idAt (t + 1) ≠ s.transition.id := by
      intro hc
      rw [hs.rid] at hc
      have := pos_inj _ (posId_inj rob.ids rob.notEcho hst0 hs.stage hc)
      omega
    have hsim : Simultaneous s (z.pl.idAt (t + 1)) := by
      unfold Simultaneous
      cases hb : (z.pl.at' (t + 1)).2 with
      | true =>
        left
        have hes := hs.echoInfo
        rw [hb] at hes
        rw [if_pos hes, hs.rid]
        obtain ⟨k, hq, hek⟩ := before hb
        have hkn : k < z.pl.n := by have := hs.stage; rw [hq] at this; exact this
        simp only [Plan.idAt, pos, show pos z.pl.echoAt t = (k, false) from hq, nextPos, hek, if_true]
        rw [posId_main (rob.notEcho k hkn)]
        exact posId_echo (rob.notEcho k hkn)
      | false =>
        right; right
        have hq1 := Plan.after hb
        rw [hq1] at hst0
        have := hs.next hst0
        simp only [Plan.idAt]
        rw [show pos z.pl.echoAt (t + 1) = _ from hq1, posId_main (rob.notEcho _ hst0)]
        exact this
    have hkeep := deliver_keeps ok.mt hwf (a := a) (x := x) (m := m) hau hdiff hsim hne hnc
    refine ⟨_, hkeep, hh.unprovable, Or.inr rfl, hsrc, fun hp => Or.inr hp, ?_, by omega, ?_, fun hp => hp, ?_⟩
    · rintro r ⟨en, vm, h1, h2⟩
      simp only [BMap.get?_insert, if_true, Option.some.injEq] at h1
      subst h1
      simp only [BMap.get?_insert] at h2
      split at h2
      · rename_i hrr
        exact Or.inl hrr
      · cases hcg : a.cached.get? x with
        | none => simp [hcg] at h2
        | some en' =>
          simp only [hcg, Option.getD_some] at h2
          exact Or.inr ⟨en', vm, hcg, h2⟩
    · intro _
      exact ⟨((a.cached.get? x).getD BMap.empty).insert (z.pl.idAt (t + 1)) (verifiedOf x m), verifiedOf x m, by simp, by simp⟩
    · rintro r ⟨en, vm, h1, h2⟩
      by_cases hrr : r = z.pl.idAt (t + 1)
      · exact ⟨((a.cached.get? x).getD BMap.empty).insert (z.pl.idAt (t + 1)) (verifiedOf x m), verifiedOf x m, by simp, by simp [hrr]⟩
      · refine ⟨((a.cached.get? x).getD BMap.empty).insert (z.pl.idAt (t + 1)) (verifiedOf x m), vm, by simp, ?_⟩
        simp only [BMap.get?_insert, hrr, if_false, h1, Option.getD_some]
        exact h2

theorem accepted (ok : z.Ok) {G : History P} {e : sp.Id → Nat} {net : Net P} (h : z.NetInv G e net) {d x : sp.Id} {m : Message sp}
    {s : Session P} {a a' : Accum P} (hn : net.node d = some (.running s a)) {t : Nat} (he : e d = t + 1) (hs : z.SessInv G d t s)
    (ha : z.AccInv G e d t a) (hx : z.H x) {u : Nat} (hu : u < e x) (hd : (z.pl.dAt u x).contains d = true)
    (hm : z.MsgAt G x d u m) (hnr : ¬ z.Recv net e d x u) (hdel : Manul.deliver s a x m = .ok a') :
    a'.unprovable.get? x = none ∧ (u = t ∨ u = t + 1) ∧ (z.pl.xAt u d).contains x = true ∧
      (a'.payloads.contains x = true → u = t ∨ a.payloads.contains x = true) ∧
      (∀ r, IsCached a' x r → r = z.pl.idAt u ∨ IsCached a x r) ∧
      (u = t → a'.payloads.contains x = true) ∧ (u = t + 1 → IsCached a' x (z.pl.idAt u)) ∧
      (a.payloads.contains x = true → a'.payloads.contains x = true) ∧ (∀ r, IsCached a x r → IsCached a' x r) := by
  obtain ⟨b, hb, h1⟩ := accepts ok h hn he hs ha hx hu hd hm hnr
  rw [hdel] at hb
  cases hb
  exact h1

/-- A party receives a message. -/
theorem NetInv.receive (ok : z.Ok) {G : History P} {e : sp.Id → Nat} {net : Net P} (h : z.NetInv G e net) {p : Packet sp}
    {w w' : List (Packet sp)} (hw : net.wire = w ++ p :: w') {s : Session P} {a a' : Accum P}
    (hn : net.node p.dest = some (.running s a)) (hdel : Manul.deliver s a p.src p.message = .ok a') :
    z.NetInv G e (Net.put ⟨net.node, w ++ w'⟩ p.dest (.running s a') []) := by
  have hp : p ∈ net.wire := by rw [hw]; simp
  have hdH := h.who _ _ hn
  obtain ⟨t, he, hs, ha⟩ := h.running _ _ _ hn
  have hdl := hdel
  rw [deliver_loc] at hdl
  cases hl : Loc.deliver s p.src p.message (a.loc p.src) with
  | error er => simp [hl, liftLoc] at hdl
  | ok l' =>
  simp only [hl, liftLoc, Except.ok.injEq] at hdl
  have hcase := deliver_cases hl
  have hothers : ∀ x, x ≠ p.src → a'.loc x = a.loc x := by
    intro x hx
    rw [← hdl, Accum.loc_setLoc_other _ hx]
  have hsame : a'.loc p.src = l' := by rw [← hdl, Accum.loc_setLoc_same]
  have ha' : z.AccInv G e p.dest t a' := by
    refine ⟨?_, ?_, ?_⟩
    · rw [← hdl]; exact ha.expecting
    · rw [deliver_artifacts hdel]; exact ha.artifacts
    · intro x
      by_cases hx : x = p.src
      · subst hx
        rw [hsame]
        refine (ha.loc p.src).delivered ok h.history hdH hs hcase (h.fair p hp) ?_
        intro hsrc
        obtain ⟨u, h1, h2, h3, h4⟩ := h.wire p hp hsrc
        obtain ⟨g1, g2, g3, -⟩ := accepted ok h hn he hs ha hsrc h1 h2 h3 h4 hdel
        refine ⟨?_, u, h1, g3, h3, g2⟩
        rw [← hsame]
        exact g1
      · rw [hothers x hx]
        exact ha.loc x
  have hnode : ∀ x, x ≠ p.dest → (Net.put ⟨net.node, w ++ w'⟩ p.dest (.running s a') []).node x = net.node x := by
    intro x hx
    simp [Net.put, Function.update_of_ne hx]
  have hnodei : (Net.put ⟨net.node, w ++ w'⟩ p.dest (.running s a') []).node p.dest = some (.running s a') := by simp [Net.put]
  have hwire : (Net.put ⟨net.node, w ++ w'⟩ p.dest (.running s a') []).wire = w ++ w' := by simp [Net.put]
  have hsub : (w ++ w').Sublist net.wire := by
    rw [hw]
    exact List.Sublist.append (List.Sublist.refl _) (List.sublist_cons_self _ _)
  have hpair := h.differ
  rw [hw, List.pairwise_append, List.pairwise_cons] at hpair
  have hnot : ∀ q ∈ w ++ w', z.Differ q p := by
    intro q hq
    rcases List.mem_append.1 hq with hq | hq
    · exact hpair.2.2 q hq p (by simp)
    · exact (hpair.2.1.1 q hq).symm
  refine ⟨h.history, ?_, ?_, ?_, ?_, h.entered, h.sync, ?_, ?_, ?_, ?_⟩
  · intro x hx
    by_cases hxi : x = p.dest
    · subst hxi; rw [hnodei] at hx; simp at hx
    · rw [hnode x hxi] at hx
      exact h.idle x hx
  · intro x st hx
    by_cases hxi : x = p.dest
    · subst hxi; exact hdH
    · rw [hnode x hxi] at hx
      exact h.who x st hx
  · intro x s' a'' hx
    by_cases hxi : x = p.dest
    · subst hxi
      rw [hnodei] at hx
      simp only [Option.some.injEq, RunState.running.injEq] at hx
      obtain ⟨rfl, rfl⟩ := hx
      exact ⟨t, he, hs, ha'⟩
    · rw [hnode x hxi] at hx
      exact h.running x s' a'' hx
  · intro x r hx
    by_cases hxi : x = p.dest
    · subst hxi; rw [hnodei] at hx; simp at hx
    · rw [hnode x hxi] at hx
      exact h.done x r hx
  · intro q hq hqs
    rw [hwire] at hq
    obtain ⟨u, h1, h2, h3, h4⟩ := h.wire q (hsub.subset hq) hqs
    refine ⟨u, h1, h2, h3, ?_⟩
    rintro ⟨s', a'', hn', hc⟩
    by_cases hxi : q.dest = p.dest
    · rw [hxi, hnodei] at hn'
      simp only [Option.some.injEq, RunState.running.injEq] at hn'
      obtain ⟨rfl, rfl⟩ := hn'
      rw [hxi] at hc
      have h4' : ¬ z.Recv net e p.dest q.src u := by rw [← hxi]; exact h4
      by_cases hsq : q.src = p.src
      · have hps : z.H p.src := by rw [← hsq]; exact hqs
        obtain ⟨v, k1, k2, k3, k4⟩ := h.wire p hp hps
        obtain ⟨-, k5, -, g4, g5, -⟩ := accepted ok h hn he hs ha hps k1 k2 k3 k4 hdel
        have hneq : u ≠ v := by
          rintro rfl
          exact hnot q hq ⟨hqs, hsq, hxi, by rw [h3.roundId, k3.roundId]⟩
        rw [hsq] at hc h4' h1
        rcases hc with hc | ⟨hc, hpc⟩ | ⟨hc, hcc⟩
        · exact h4' ⟨s, a, hn, Or.inl hc⟩
        · rcases g4 hpc with g | g
          · omega
          · exact h4' ⟨s, a, hn, Or.inr (Or.inl ⟨hc, g⟩)⟩
        · rcases g5 _ hcc with g | g
          · exact hneq (h.ids ok h1 k1 g)
          · exact h4' ⟨s, a, hn, Or.inr (Or.inr ⟨hc, g⟩)⟩
      · have hloc := hothers q.src hsq
        apply h4'
        refine ⟨s, a, hn, ?_⟩
        rcases hc with hc | ⟨hc, hpc⟩ | ⟨hc, en, vm, c1, c2⟩
        · exact Or.inl hc
        · refine Or.inr (Or.inl ⟨hc, ?_⟩)
          rw [contains_isSome] at hpc ⊢
          exact (congrArg (fun l => l.payload.isSome) hloc).symm.trans hpc
        · exact Or.inr (Or.inr ⟨hc, en, vm, (congrArg (fun l => l.cached) hloc).symm.trans c1, c2⟩)
    · rw [hnode _ hxi] at hn'
      exact h4 ⟨s', a'', hn', hc⟩
  · rw [hwire]; exact fun q hq => h.fair q (hsub.subset hq)
  · rw [hwire]; exact h.differ.sublist hsub
  · intro d j u hd hj hu hdj
    rcases h.sent d j u hd hj hu hdj with ⟨q, hq, h1, h2, h3⟩ | ⟨s', a'', hn', hc⟩ | ⟨r', hn'⟩
    · rw [hw] at hq
      by_cases hqp : q = p
      · subst hqp
        subst h1 h2
        obtain ⟨v, k1, k2, k3, k4⟩ := h.wire q hp hj
        rw [k3.roundId] at h3
        have := h.ids ok k1 hu h3
        subst this
        obtain ⟨-, k5, -, -, -, g6, g7, -, -⟩ := accepted ok h hn he hs ha hj k1 k2 k3 k4 hdel
        right; left
        refine ⟨s, a', hnodei, ?_⟩
        rcases k5 with k5 | k5
        · exact Or.inr (Or.inl ⟨by omega, g6 k5⟩)
        · exact Or.inr (Or.inr ⟨by omega, g7 k5⟩)
      · left
        refine ⟨q, ?_, h1, h2, h3⟩
        rw [hwire]
        rcases List.mem_append.1 hq with hq | hq
        · exact List.mem_append.2 (Or.inl hq)
        · rcases List.mem_cons.1 hq with hq | hq
          · exact absurd hq hqp
          · exact List.mem_append.2 (Or.inr hq)
    · right; left
      by_cases hxi : d = p.dest
      · subst hxi
        rw [hn] at hn'
        simp only [Option.some.injEq, RunState.running.injEq] at hn'
        obtain ⟨rfl, rfl⟩ := hn'
        refine ⟨s, a', hnodei, ?_⟩
        by_cases hsq : j = p.src
        · subst hsq
          obtain ⟨v, k1, k2, k3, k4⟩ := h.wire p hp hj
          obtain ⟨-, -, -, -, -, -, -, g8, g9⟩ := accepted ok h hn he hs ha hj k1 k2 k3 k4 hdel
          rcases hc with hc | ⟨hc, hpc⟩ | ⟨hc, hcc⟩
          · exact Or.inl hc
          · exact Or.inr (Or.inl ⟨hc, g8 hpc⟩)
          · exact Or.inr (Or.inr ⟨hc, g9 _ hcc⟩)
        · have hloc := hothers j hsq
          rcases hc with hc | ⟨hc, hpc⟩ | ⟨hc, en, vm, c1, c2⟩
          · exact Or.inl hc
          · refine Or.inr (Or.inl ⟨hc, ?_⟩)
            rw [contains_isSome] at hpc ⊢
            exact (congrArg (fun l => l.payload.isSome) hloc).trans hpc
          · exact Or.inr (Or.inr ⟨hc, en, vm, (congrArg (fun l => l.cached) hloc).trans c1, c2⟩)
      · exact ⟨s', a'', by rw [hnode d hxi]; exact hn', hc⟩
    · right; right
      by_cases hxi : d = p.dest
      · subst hxi; rw [hn] at hn'; simp at hn'
      · exact ⟨r', by rw [hnode d hxi]; exact hn'⟩

/-- Somebody puts a packet on the wire. -/
theorem NetInv.injects {G : History P} {e : sp.Id → Nat} {net : Net P} (h : z.NetInv G e net) {p : Packet sp}
    (hs : ¬ z.H p.src) (hf : z.Fair p.src p.message) : z.NetInv G e ⟨net.node, net.wire ++ [p]⟩ := by
  obtain ⟨h1, h2, h3, h4, h5, h6, h7, h8, h9, h10, h11⟩ := h
  refine ⟨h1, h2, h3, h4, h5, h6, h7, ?_, ?_, ?_, ?_⟩
  · intro q hq hqs
    rcases List.mem_append.1 hq with hq | hq
    · exact h8 q hq hqs
    · simp only [List.mem_singleton] at hq
      subst hq
      exact absurd hqs hs
  · intro q hq hqs
    rcases List.mem_append.1 hq with hq | hq
    · exact h9 q hq hqs
    · simp only [List.mem_singleton] at hq
      subst hq
      exact hf
  · rw [List.pairwise_append]
    refine ⟨h10, List.pairwise_singleton _ _, ?_⟩
    intro q hq q' hq'
    simp only [List.mem_singleton] at hq'
    subst hq'
    rintro ⟨g1, g2, -⟩
    rw [g2] at g1
    exact hs g1
  · intro d j t hd hj ht hdj
    rcases h11 d j t hd hj ht hdj with ⟨q, hq, g⟩ | g | g
    · exact Or.inl ⟨q, List.mem_append.2 (Or.inl hq), g⟩
    · exact Or.inr (Or.inl g)
    · exact Or.inr (Or.inr g)

/-- The positions entered after a step of party `i`, which ends or enters one. -/
def Moves (e e' : sp.Id → Nat) (net' : Net P) (i : sp.Id) : Prop :=
  (∀ x, x ≠ i → e' x = e x) ∧ ((∃ r, net'.node i = some (.done r)) ∨ ∃ s a, net'.node i = some (.running s a) ∧ e' i = e i + 1)

theorem Moves.halt {e : sp.Id → Nat} {net : Net P} {i : sp.Id} {r : Except LErr (Report P)} {out : List (Message sp)} :
    Moves e e (net.put i (.done r) out) i :=
  ⟨fun _ _ => rfl, Or.inl ⟨r, by simp [Net.put]⟩⟩

theorem Moves.go {e : sp.Id → Nat} {net : Net P} {i : sp.Id} {s : Session P} {a : Accum P} {out : List (Message sp)} :
    Moves e (Function.update e i (e i + 1)) (net.put i (.running s a) out) i :=
  ⟨fun _ hx => by simp [Function.update_of_ne hx], Or.inr ⟨s, a, by simp [Net.put], by simp⟩⟩

/-- A party starts. -/
theorem NetInv.starts (ok : z.Ok) {G : History P} {e : sp.Id → Nat} {net : Net P} (h : z.NetInv G e net) {i : sp.Id}
    (hi : z.H i) (hn : net.node i = none) (rng rng' : sp.Rng) :
    ∃ G' e', z.NetInv G' e' (net.put i (z.pl.g.startNode i rng rng').1 (z.pl.g.startNode i rng rng').2) ∧
      Moves e e' (net.put i (z.pl.g.startNode i rng rng').1 (z.pl.g.startNode i rng rng').2) i := by
  obtain ⟨he, hGi⟩ := h.idle i hn
  unfold Group.startNode
  cases hnew : Session.new rng z.pl.g.sid (z.pl.g.signer i) (z.pl.g.ep i) with
  | error er => exact ⟨G, e, h.halt hi (by simp), .halt⟩
  | ok s =>
    simp only [start, enterRound]
    cases hst : startRound s rng' [] with
    | error er => exact ⟨G, e, h.halt hi (by simp), .halt⟩
    | ok ro =>
      obtain ⟨a, out⟩ := ro
      simp only
      unfold Session.new at hnew
      rw [ok.keys i (ok.rob.members i hi)] at hnew
      cases hmk : (z.pl.g.ep i).makeRound (sp.fork rng 0) z.pl.g.sid i with
      | error er => simp [hmk] at hnew
      | ok r =>
        simp only [hmk] at hnew
        have hns := newForNextRound_ok hnew
        have hent : EnteringAmong z.pl.g z.H G i r := Or.inl ⟨hGi, _, hmk⟩
        obtain ⟨c, h1, h2, h3, h4, h5, -, h6, h7⟩ := enterMain ok h.history (e := e) hi (t := 0) (k := 0) rfl (by rw [hGi]; rfl) hent
          (tr := Transcript.new) ⟨by simp [Transcript.new], by simp [Transcript.new], rfl⟩ (cs := []) ⟨by simp⟩ hns hst
        refine ⟨_, _, h.advance ok hi (HExt.snoc G i c) (fun x hx => by simp [Function.update_of_ne hx]) h1
          (by rw [he]; exact h2) (by rw [he]; exact h3) ?_ ?_ h4 (by simp [hn]) (by simp [hn])
          (by rw [he]; exact h6) (by rw [he]; exact h7), .go⟩
        · intro j _ t ht; omega
        · rintro j t _ _ (ht | ⟨-, hp⟩)
          · omega
          · obtain ⟨vm, hvm, -⟩ := h5 j hp
            simp at hvm

/-- A party goes on to the next position. -/
theorem NetInv.goes (ok : z.Ok) {G G' : History P} {e : sp.Id → Nat} {net : Net P} (h : z.NetInv G e net) {i : sp.Id}
    (hi : z.H i) {s : Session P} {a : Accum P} (hn : net.node i = some (.running s a)) {t : Nat} (he : e i = t + 1)
    (ha : z.AccInv G e i t a) (hy : a.canFinalize = .yes) (hext : HExt G G') (hoth : ∀ x, x ≠ i → G' x = G x) (hG' : z.HistOk G')
    {s' : Session P} {a' : Accum P} {out : List (Message sp)} (hs' : z.SessInv G' i (t + 1) s') (ha' : z.AccInv G' e i (t + 1) a')
    (hcached : a'.cached = BMap.empty) (hpay : ∀ x, a'.payloads.contains x = true → IsCached a x (z.pl.idAt (t + 1)))
    (hcon : ∀ x, z.H x → IsCached a x (z.pl.idAt (t + 1)) → a'.payloads.contains x = true)
    (hout : out.map (fun m => m.destination) = (z.pl.dAt (t + 1) i).elems)
    (hmsg : ∀ m ∈ out, z.MsgAt G' i m.destination (t + 1) m) :
    z.NetInv G' (Function.update e i (e i + 1)) (net.put i (.running s' a') out) := by
  have hall := ha.yes hy
  refine h.advance ok hi hext hoth hG' (by rw [he]; exact hs') (by rw [he]; exact ha') ?_ ?_ hcached (by simp [hn]) ?_
    (by rw [he]; exact hout) (by rw [he]; exact hmsg)
  · intro j hj u hu hx
    have : u = t := by omega
    subst this
    rw [← hall j, contains_isSome] at hx
    exact ((ha.loc j).honest hj).ahead hx
  · rintro j u hj hx (hu | ⟨hu, hp⟩)
    · by_cases hut : u + 1 < e i
      · exact ⟨s, a, hn, Or.inl hut⟩
      · have : u = t := by omega
        subst this
        exact ⟨s, a, hn, Or.inr (Or.inl ⟨he.symm, by rw [hall j]; exact hx⟩)⟩
    · exact ⟨s, a, hn, Or.inr (Or.inr ⟨hu, by rw [hu, he]; exact hpay j hp⟩)⟩
  · intro j s₀ a₀ hj hn₀ hc
    rw [hn] at hn₀
    simp only [Option.some.injEq, RunState.running.injEq] at hn₀
    obtain ⟨rfl, rfl⟩ := hn₀
    rw [he] at hc
    exact hcon j hj hc

/-- A party finishes a position. -/
theorem NetInv.ticks (ok : z.Ok) {G : History P} {e : sp.Id → Nat} {net : Net P} (h : z.NetInv G e net) {i : sp.Id}
    {s : Session P} {a : Accum P} (hn : net.node i = some (.running s a)) (rng : sp.Rng) (hy : a.canFinalize = .yes) :
    ∃ G' e', z.NetInv G' e' (net.put i (finishRound s a rng).1 (finishRound s a rng).2) ∧
      Moves e e' (net.put i (finishRound s a rng).1 (finishRound s a rng).2) i := by
  have hi := h.who i _ hn
  obtain ⟨t, he, hs, ha⟩ := h.running i s a hn
  unfold finishRound
  cases hf : s.finalizeRound (sp.fork rng 0) a with
  | error er => exact ⟨G, e, h.halt hi (by simp), .halt⟩
  | ok o =>
    obtain ⟨tr, hu, hfin⟩ := finalizeRound_ok hf
    cases hfin with
    | @toEcho info r s' ebs hinfo hr hebs hns =>
      simp only [enterRound]
      cases hst : startRound s' (sp.fork rng 1) (Accum.filterMessages a.cached s'.roundId) with
      | error er => exact ⟨G, e, h.halt hi (by simp), .halt⟩
      | ok ro =>
        obtain ⟨a', out⟩ := ro
        obtain ⟨h1, h2, h3, h4, h4', h5, h6⟩ := enterEcho ok h.history hi hs ha hy hu hinfo hr hebs hns hst
        exact ⟨G, _, h.goes ok hi hn he ha hy (HExt.refl G) (fun _ _ => rfl) h.history h1 h2 h3 h4 h4' h5 h6, .go⟩
    | @toNext r s' hinfo hfz hch hns hrid =>
      simp only [enterRound]
      split
      · rename_i hst
        exact ⟨G, e, h.halt hi (by simp), .halt⟩
      · rename_i a' out hst
        obtain ⟨c, h1, h2, h3, h4, h5, h5', h6, h7⟩ := enterNext ok h.history hi hs ha hy hu hinfo hfz hns hst
        exact ⟨_, _, h.goes ok hi hn he ha hy (HExt.snoc G i c) (fun x hx => by simp [Function.update_of_ne hx]) h1 h2 h3 h4 h5 h5' h6 h7, .go⟩
    | @result v hinfo hfz =>
      have htr := updates hs ha (ha.awaited hy) hu
      refine ⟨G, e, h.halt hi ?_, .halt⟩
      intro rep hrep
      simp only [Except.ok.injEq] at hrep
      subst hrep
      refine ⟨htr.provable, htr.unprovable, htr.missing, ?_, ?_⟩
      · intro v' hv'
        simp only [Report.new, SessionOutcome.result.injEq] at hv'
        subst hv'
        exact ⟨_, finalizes h.history hs ha hy hfz⟩
      · intro _ _
        have hq : (z.pl.at' (t + 1)).2 = false := by rw [← hs.echoInfo, hinfo]; rfl
        rw [he, Plan.after hq, hs.len]

/-- A party gives up. -/
theorem NetInv.ends {G : History P} {e : sp.Id → Nat} {net : Net P} (h : z.NetInv G e net) {i : sp.Id}
    {s : Session P} {a : Accum P} (hn : net.node i = some (.running s a)) (hy : a.canFinalize = .never) :
    z.NetInv G e (net.put i (.done (s.terminateDueToErrors a)) []) := by
  have hi := h.who i _ hn
  obtain ⟨t, he, hs, ha⟩ := h.running i s a hn
  refine h.halt hi ?_
  intro rep hrep
  unfold Session.terminateDueToErrors Session.terminateInner at hrep
  cases hu : s.updatedTranscript a with
  | error er => simp [hu] at hrep
  | ok tr =>
    simp only [hu, Except.ok.injEq] at hrep
    have hns : a.notSent.isEmpty = true := by
      unfold Accum.canFinalize at hy
      split at hy
      · simp at hy
      · split at hy
        · simp at hy
        · rename_i hc
          simpa using hc
    have htr := updates hs ha hns (update_iff.1 hu)
    subst hrep
    refine ⟨htr.provable, htr.unprovable, htr.missing, ?_, ?_⟩ <;>
    · intro v hv
      simp [Report.new] at hv

/-- What a step does: a party ends or enters a position, or a packet is consumed, or somebody puts one on the wire. -/
inductive Change (z : Byz P) (adv : Packet sp → Prop) (e e' : sp.Id → Nat) (net net' : Net P) : Prop where
  | move {i : sp.Id} : z.H i → (∀ r, net.node i ≠ some (.done r)) → (∀ x, x ≠ i → net'.node x = net.node x) →
      Moves e e' net' i → Change z adv e e' net net'
  | shrink {i : sp.Id} {s : Session P} {a a' : Accum P} : net.node i = some (.running s a) →
      net'.node i = some (.running s a') → (∀ x, x ≠ i → net'.node x = net.node x) → net'.wire.length < net.wire.length →
      e' = e → Change z adv e e' net net'
  | inject {p : Packet sp} : adv p → Change z adv e e' net net'

/-- The invariant is kept by every step. -/
theorem NetInv.step (ok : z.Ok) {adv : Packet sp → Prop} (hadv : ∀ p, ¬ z.H p.src → adv p → z.Fair p.src p.message)
    {G : History P} {e : sp.Id → Nat} {net net' : Net P} (h : z.NetInv G e net) (hst : ByzStep z.pl.g z.H adv net net') :
    ∃ G' e', z.NetInv G' e' net' ∧ z.Change adv e e' net net' := by
  cases hst with
  | @start i rng rng' hi hn =>
    obtain ⟨G', e', h1, h2⟩ := h.starts ok hi hn rng rng'
    exact ⟨G', e', h1, .move hi (by simp [hn]) (fun x hx => by simp [Net.put, Function.update_of_ne hx]) h2⟩
  | @tick i st st' rng out hn hs =>
    cases st with
    | done r => simp [Manul.step] at hs
    | running s a =>
      cases hc : a.canFinalize with
      | yes =>
        simp only [Manul.step, hc, Option.some.injEq] at hs
        obtain ⟨G', e', h1, h2⟩ := h.ticks ok hn rng hc
        rw [hs] at h1 h2
        exact ⟨G', e', h1, .move (h.who i _ hn) (by simp [hn]) (fun x hx => by simp [Net.put, Function.update_of_ne hx]) h2⟩
      | never =>
        simp only [Manul.step, hc, Option.some.injEq, Prod.mk.injEq] at hs
        obtain ⟨rfl, rfl⟩ := hs
        exact ⟨G, e, h.ends hn hc, .move (h.who i _ hn) (by simp [hn])
          (fun x hx => by simp [Net.put, Function.update_of_ne hx]) .halt⟩
      | notYet => simp [Manul.step, hc] at hs
  | @deliver st st' p w w' out hw hn hs =>
    cases st with
    | done r => simp [Manul.step] at hs
    | running s a =>
      cases hc : a.canFinalize with
      | yes => simp [Manul.step, hc] at hs
      | never => simp [Manul.step, hc] at hs
      | notYet =>
        simp only [Manul.step, hc] at hs
        cases hd : Manul.deliver s a p.src p.message with
        | error er =>
          simp only [hd, Option.some.injEq, Prod.mk.injEq] at hs
          obtain ⟨rfl, rfl⟩ := hs
          refine ⟨G, e, h.halts (h.who _ _ hn) ?_ ?_ (by simp), .move (h.who _ _ hn) (by simp [hn])
            (fun x hx => by simp [Net.put, Function.update_of_ne hx]) .halt⟩
          · rw [hw]
            exact List.Sublist.append (List.Sublist.refl _) (List.sublist_cons_self _ _)
          · intro q hq hne
            rw [hw] at hq
            rcases List.mem_append.1 hq with hq | hq
            · exact List.mem_append.2 (Or.inl hq)
            · rcases List.mem_cons.1 hq with rfl | hq
              · exact absurd rfl hne
              · exact List.mem_append.2 (Or.inr hq)
        | ok a' =>
          simp only [hd, Option.some.injEq, Prod.mk.injEq] at hs
          obtain ⟨rfl, rfl⟩ := hs
          refine ⟨G, e, h.receive ok hw hn hd, .shrink (a' := a') hn (by simp [Net.put])
            (fun x hx => by simp [Net.put, Function.update_of_ne hx]) (by simp [Net.put, hw]) rfl⟩
  | @inject p hs ha => exact ⟨G, e, h.injects hs (hadv p hs ha), .inject ha⟩

theorem NetInv.reach (ok : z.Ok) {adv : Packet sp → Prop} (hadv : ∀ p, ¬ z.H p.src → adv p → z.Fair p.src p.message)
    {net : Net P} (h : ByzReach z.pl.g z.H adv net) : ∃ G e, z.NetInv G e net := by
  induction h with
  | init => exact ⟨_, _, NetInv.init⟩
  | step _ hs ih =>
    obtain ⟨G, e, h⟩ := ih
    obtain ⟨G', e', h', -⟩ := h.step ok hadv hs
    exact ⟨G', e', h'⟩

/-- What the invariant says of a party. -/
theorem NetInv.notBlamed {G : History P} {e : sp.Id → Nat} {net : Net P} (h : z.NetInv G e net) {i j : sp.Id} (hj : z.H j)
    {st : RunState P} (hn : net.node i = some st) : NotBlamed j st := by
  cases st with
  | running s a =>
    obtain ⟨t, -, hs, ha⟩ := h.running i s a hn
    have hh := (ha.loc j).honest hj
    refine ⟨?_, by rw [hs.transcript.missing]; simp⟩
    rintro (⟨y, h1⟩ | ⟨y, h1⟩ | ⟨y, h1⟩ | ⟨y, h1⟩)
    · rw [hs.transcript.provable j hj] at h1; simp at h1
    · rw [hs.transcript.unprovable j hj] at h1; simp at h1
    · rw [show a.provable.get? j = none from hh.provable] at h1; simp at h1
    · rw [show a.unprovable.get? j = none from hh.unprovable] at h1; simp at h1
  | done r =>
    intro rep hrep
    subst hrep
    have hd := h.done i rep hn
    exact ⟨hd.provable j hj, hd.unprovable j hj, by rw [hd.missing]; simp⟩

/-- Without equivocation there is a choice of echo broadcasts. -/
theorem exists_bc (pl : Plan P) (H : sp.Id → Prop) (adv : Packet sp → Prop) (hne : NoEquivocation pl H adv) :
    ∃ z : Byz P, z.pl = pl ∧ z.H = H ∧ ∀ p, ¬ z.H p.src → adv p → z.Fair p.src p.message := by
  classical
  let good : sp.Id → Nat → Part .echo → Prop := fun x k q => ∃ p, adv p ∧ p.src = x ∧ ¬ H x ∧
    AuthenticPart x pl.g.sid (pl.rid k) p.message.echo ∧ p.message.echo.part = q
  refine ⟨⟨pl, H, fun x k => if hq : ∃ q, good x k q then hq.choose else Part.none⟩, rfl, rfl, ?_⟩
  intro p hp hadv k hk hek hau
  have hq : ∃ q, good p.src k q := ⟨_, p, hadv, rfl, hp, hau, rfl⟩
  obtain ⟨p', h1, h2, h3, h4, h5⟩ := hq.choose_spec
  simp only [dif_pos hq]
  rw [← h5]
  exact hne p p' k hp h2 hadv h1 hk hek hau h4

end Byz

end Manul
