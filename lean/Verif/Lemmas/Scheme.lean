import Verif.Spec.Scheme
import Verif.Lemmas.Network

/-!
# The network of parties with partial participation in echo rounds: invariants

The positions of the parties are numbered in the same way for all of them: `2 k` is the round of stage `k` and `2 k + 1` its
echo round, which some of the parties leave out.
-/

namespace Manul

variable {sp : SP} {P : Proto sp}

/-- The stage of a position, with a flag for the echo round. -/
def spot (t : Nat) : Nat × Bool := (t / 2, decide (t % 2 = 1))

theorem spot_main {t k : Nat} : spot t = (k, false) ↔ t = 2 * k := by
  simp only [spot, Prod.mk.injEq, decide_eq_false_iff_not]
  omega

theorem spot_echo {t k : Nat} : spot t = (k, true) ↔ t = 2 * k + 1 := by
  simp only [spot, Prod.mk.injEq, decide_eq_true_eq]
  omega

theorem spot_inj {t t' : Nat} (h : spot t = spot t') : t = t' := by
  simp only [spot, Prod.mk.injEq, decide_eq_decide] at h
  omega

theorem spot_mono {t t' : Nat} (h : t ≤ t') : (spot t).1 ≤ (spot t').1 := by
  simp only [spot]
  omega

theorem spot_lt {t n : Nat} : (spot t).1 < n ↔ t < 2 * n := by
  simp only [spot]
  omega

namespace Scheme

variable (sc : Scheme P)

/-- The round id of a position. -/
abbrev idAt (t : Nat) : RoundId := posId sc.rid (spot t)

/-- Whom messages are sent to at a position. -/
def dAt (t : Nat) (i : sp.Id) : BSet sp.Id :=
  match spot t with
  | (k, false) => sc.dests k i
  | (k, true) => if sc.runsEcho k i then sc.peers k i else BMap.empty

/-- Whom messages are expected from at a position. -/
def xAt (t : Nat) (i : sp.Id) : BSet sp.Id :=
  match spot t with
  | (k, false) => sc.expects k i
  | (k, true) => if sc.runsEcho k i then sc.peers k i else BMap.empty

/-- The participation at a position. -/
def pAt (t : Nat) (i : sp.Id) : EchoParticipation sp.Id :=
  match spot t with
  | (k, false) => sc.part k i
  | (_, true) => .default

/-- The position after a position. -/
def nxt (t : Nat) (i : sp.Id) : Nat :=
  match spot t with
  | (k, false) => if sc.runsEcho k i then 2 * k + 1 else 2 * k + 2
  | (k, true) => 2 * k + 2

/-- The party has this position. -/
def Active (t : Nat) (i : sp.Id) : Prop := ∀ k, spot t = (k, true) → sc.runsEcho k i = true

variable {sc}

theorem dAt_main {t k : Nat} {i : sp.Id} (h : spot t = (k, false)) : sc.dAt t i = sc.dests k i := by simp [dAt, h]

theorem xAt_main {t k : Nat} {i : sp.Id} (h : spot t = (k, false)) : sc.xAt t i = sc.expects k i := by simp [xAt, h]

theorem dAt_echo {t k : Nat} {i : sp.Id} (h : spot t = (k, true)) (hr : sc.runsEcho k i = true) : sc.dAt t i = sc.peers k i := by
  simp [dAt, h, hr]

theorem xAt_echo {t k : Nat} {i : sp.Id} (h : spot t = (k, true)) (hr : sc.runsEcho k i = true) : sc.xAt t i = sc.peers k i := by
  simp [xAt, h, hr]

/-- Only positions a party has have messages. -/
theorem active_of_expects {t : Nat} {i x : sp.Id} (h : (sc.xAt t i).contains x = true) : sc.Active t i := by
  intro k hk
  by_contra hr
  simp [xAt, hk, hr] at h

theorem active_of_sends {t : Nat} {i x : sp.Id} (h : (sc.dAt t i).contains x = true) : sc.Active t i := by
  intro k hk
  by_contra hr
  simp [dAt, hk, hr] at h

theorem lt_nxt (t : Nat) (i : sp.Id) : t < sc.nxt t i := by
  cases hq : spot t with
  | mk k b =>
    cases b with
    | false => have := spot_main.1 hq; simp only [nxt, hq]; split <;> omega
    | true => have := spot_echo.1 hq; simp only [nxt, hq]; omega

/-- Between a position and the next one the party has none. -/
theorem nxt_le {t u : Nat} {i : sp.Id} (hu : sc.Active u i) (h : t < u) : sc.nxt t i ≤ u := by
  cases hq : spot t with
  | mk k b =>
    cases b with
    | false =>
      have := spot_main.1 hq
      simp only [nxt, hq]
      split
      · omega
      · rename_i hr
        by_contra hc
        exact hr (hu k (spot_echo.2 (by omega)))
    | true => have := spot_echo.1 hq; simp only [nxt, hq]; omega

theorem nxt_active (t : Nat) (i : sp.Id) : sc.Active (sc.nxt t i) i := by
  intro k hk
  rw [spot_echo] at hk
  cases hq : spot t with
  | mk l b =>
    cases b with
    | false =>
      simp only [nxt, hq] at hk
      split at hk
      · rename_i hr
        have : l = k := by omega
        rwa [this] at hr
      · omega
    | true => simp only [nxt, hq] at hk; omega

/-- Every position of a party but the first comes after another one. -/
theorem prev_of {u t : Nat} {i : sp.Id} (hu : sc.Active u i) (ht : sc.Active t i) (h : u < t) :
    ∃ q, sc.nxt q i = t ∧ sc.Active q i ∧ u ≤ q := by
  cases hq : spot t with
  | mk k b =>
    cases b with
    | true =>
      have hk := spot_echo.1 hq
      have hs : spot (2 * k) = (k, false) := spot_main.2 rfl
      refine ⟨2 * k, ?_, fun l hl => by rw [hs] at hl; simp at hl, by omega⟩
      simp only [nxt, hs, if_pos (ht k hq)]
      exact hk.symm
    | false =>
      have hk := spot_main.1 hq
      obtain ⟨l, rfl⟩ : ∃ l, k = l + 1 := ⟨k - 1, by omega⟩
      by_cases hr : sc.runsEcho l i = true
      · have hs : spot (2 * l + 1) = (l, true) := spot_echo.2 rfl
        refine ⟨2 * l + 1, ?_, fun l' hl => ?_, by omega⟩
        · simp only [nxt, hs]
          omega
        · rw [hs] at hl
          simp only [Prod.mk.injEq, and_true] at hl
          rwa [← hl]
      · have hs : spot (2 * l) = (l, false) := spot_main.2 rfl
        refine ⟨2 * l, ?_, fun l' hl => by rw [hs] at hl; simp at hl, ?_⟩
        · simp only [nxt, hs, if_neg hr]
          omega
        · by_contra hc
          exact hr (hu l (spot_echo.2 (by omega)))

namespace Pattern

variable (pat : sc.Pattern)
include pat

theorem others_at {t : Nat} {i j : sp.Id} (ht : (spot t).1 < sc.n) (hi : sc.g.parties.contains i = true)
    (h : (sc.dAt t i).contains j = true ∨ (sc.xAt t i).contains j = true) : (sc.g.others i).contains j = true := by
  cases hq : spot t with
  | mk k b =>
    rw [hq] at ht
    cases b with
    | false =>
      rw [dAt_main hq, xAt_main hq] at h
      rcases h with h | h
      · exact pat.dests k i j ht hi h
      · exact pat.expects k i j ht hi h
    | true =>
      have hr : sc.runsEcho k i = true := by
        rcases h with h | h
        · exact active_of_sends h k hq
        · exact active_of_expects h k hq
      rw [dAt_echo hq hr, xAt_echo hq hr, or_self] at h
      exact (pat.peers k i j ht hi hr h).1

theorem matched_at {t : Nat} {i j : sp.Id} (ht : (spot t).1 < sc.n) (hi : sc.g.parties.contains i = true)
    (hj : sc.g.parties.contains j = true) : (sc.dAt t i).contains j = (sc.xAt t j).contains i := by
  cases hq : spot t with
  | mk k b =>
    rw [hq] at ht
    cases b with
    | false =>
      rw [dAt_main hq, xAt_main hq]
      exact pat.matched k i j ht hi hj
    | true =>
      rw [Bool.eq_iff_iff]
      constructor
      · intro h
        have hr := active_of_sends h k hq
        rw [dAt_echo hq hr] at h
        obtain ⟨-, h1, h2⟩ := pat.peers k i j ht hi hr h
        rw [xAt_echo hq h1]
        exact h2
      · intro h
        have hr := active_of_expects h k hq
        rw [xAt_echo hq hr] at h
        obtain ⟨-, h1, h2⟩ := pat.peers k j i ht hj hr h
        rw [dAt_echo hq h1]
        exact h2

/-- When a message is sent for a position after `q`, the sender has heard from the recipient at `q`, unless `q` is the
beginning. -/
theorem heard {t q : Nat} {i j : sp.Id} (ht : (spot t).1 < sc.n) (hi : sc.g.parties.contains i = true)
    (h : (sc.dAt t i).contains j = true) (hq : sc.nxt q j = t) (hqa : sc.Active q j) (h0 : 0 < q) : (sc.xAt q i).contains j = true := by
  cases hs : spot q with
  | mk k b =>
    cases b with
    | true =>
      have hk := spot_echo.1 hs
      simp only [nxt, hs] at hq
      have hst : spot t = (k + 1, false) := spot_main.2 (by omega)
      rw [dAt_main hst] at h
      rw [hst] at ht
      have := pat.windowNext k i j ht hi h
      rw [if_pos (hqa k hs)] at this
      rw [xAt_echo hs this.1]
      exact this.2
    | false =>
      have hk := spot_main.1 hs
      simp only [nxt, hs] at hq
      rw [xAt_main hs]
      split at hq
      · rename_i hr
        have hst : spot t = (k, true) := spot_echo.2 (by omega)
        have hri := active_of_sends h k hst
        rw [dAt_echo hst hri] at h
        rw [hst] at ht
        exact pat.windowEcho k i j (by omega) ht hi hri h
      · rename_i hr
        have hst : spot t = (k + 1, false) := spot_main.2 (by omega)
        rw [dAt_main hst] at h
        rw [hst] at ht
        have := pat.windowNext k i j ht hi h
        rw [if_neg hr] at this
        exact this (by omega)

end Pattern

variable (sc)

/-- The message of `j` to `i` at position `t`. -/
structure MsgAt (L : Ledger P) (j i : sp.Id) (t : Nat) (m : Message sp) : Prop where
  dest : m.destination = i
  authentic : Authentic j sc.g.sid (sc.idAt t) m.direct m.echo m.normal
  main : ∀ k, spot t = (k, false) → ∃ c art, (L j)[k]? = some c ∧ m.echo = c.sEcho ∧ m.echo.part = c.echo ∧
    m.normal.part = c.normal ∧ c.directs.get? i = some (m.direct.part, art)
  echo : ∀ k, spot t = (k, true) → m.echo.part.payload = none ∧ m.direct.part.payload = none ∧
    ∃ pack : EchoPack sp, Decodes m.normal.part pack ∧
      (∀ x, (sc.expects k j).contains x = true → ∃ c, (L x)[k]? = some c ∧ pack.get? x = some (c.sEcho.toSignedHash sp)) ∧
      ∀ x h, pack.get? x = some h → (sc.expects k j).contains x = true

theorem MsgAt.mono {sc : Scheme P} {L L' : Ledger P} (hL : L.Ext L') {j i : sp.Id} {t : Nat} {m : Message sp}
    (h : sc.MsgAt L j i t m) : sc.MsgAt L' j i t m := by
  refine ⟨h.dest, h.authentic, ?_, ?_⟩
  · intro k hk
    obtain ⟨c, art, h1, h2⟩ := h.main k hk
    exact ⟨c, art, hL _ _ _ h1, h2⟩
  · intro k hk
    obtain ⟨h1, h2, pack, h3, h4, h5⟩ := h.echo k hk
    refine ⟨h1, h2, pack, h3, ?_, h5⟩
    intro x hx
    obtain ⟨c, hc, hp⟩ := h4 x hx
    exact ⟨c, hL _ _ _ hc, hp⟩

/-- The round object party `i` has at position `t`. -/
structure RoundAt (L : Ledger P) (i : sp.Id) (t : Nat) (s : Session P) : Prop where
  main : ∀ k, spot t = (k, false) → ∃ c, (L i)[k]? = some c ∧ s.round = .main c.rd ∧
    s.echo = c.sEcho ∧ s.echo.part = c.echo ∧ s.normal.part = c.normal
  echo : ∀ k, spot t = (k, true) → ∃ c e, (L i)[k]? = some c ∧ s.round = .echo e ∧ e.main = c.rd ∧
    e.verifier = i ∧ e.info.destinations = sc.peers k i ∧ e.info.expecting = sc.peers k i ∧
    (∀ x, e.info.expectedEchos.contains x = sc.compares k i x) ∧
    (∀ x, x = i ∨ (sc.expects k i).contains x = true → ∃ cx, (L x)[k]? = some cx ∧ e.echoBroadcasts.get? x = some cx.sEcho) ∧
    (∀ x p, e.echoBroadcasts.get? x = some p → x = i ∨ (sc.expects k i).contains x = true) ∧
    (∃ ps, downcastAll e.payloads = .ok ps ∧ PayloadsOf L.history i k ps) ∧
    downcastAll e.artifacts = .ok (c.directs.mapVal (fun _ x => x.2))

/-- The payload made of the message of `x` at position `t`. -/
structure PayAt (L : Ledger P) (i : sp.Id) (t : Nat) (x : sp.Id) (v : Option P.Payload) : Prop where
  main : ∀ k, spot t = (k, false) → ∃ w c cx p art, v = some w ∧ (L i)[k]? = some c ∧ (L x)[k]? = some cx ∧
    cx.directs.get? i = some (p, art) ∧ P.receive c.rd x ⟨cx.echo, cx.normal, p⟩ = .ok w

/-- The transcript has no errors, and entries only of positions before `t`. -/
structure TrOk (t : Nat) (tr : Transcript sp) : Prop where
  provable : ∀ x, tr.provable.get? x = none
  unprovable : ∀ x, tr.unprovable.get? x = none
  missing : tr.missing = BMap.empty
  fresh : ∀ r, tr.echos.contains r = true ∨ tr.normals.contains r = true ∨ tr.directs.contains r = true →
    ∃ t', t' < t ∧ r = sc.idAt t'

/-- The session of a party at position `t`. -/
structure SessInv (L : Ledger P) (i : sp.Id) (t : Nat) (s : Session P) : Prop where
  proper : Proper s
  sid : s.sessionId = sc.g.sid
  signer : s.signer = sc.g.signer i
  rid : s.transition.id = sc.idAt t
  stage : (spot t).1 < sc.n
  active : sc.Active t i
  len : (L i).length = (spot t).1 + 1
  comm : s.comm = ⟨sc.dAt t i, sc.xAt t i, sc.pAt t i⟩
  next : (spot t).1 + 1 < sc.n → s.transition.children.contains (sc.rid ((spot t).1 + 1)) = true
  echoInfo : s.echoInfo.isSome = (spot (sc.nxt t i)).2
  round : sc.RoundAt L i t s
  transcript : sc.TrOk t s.transcript

/-- The accumulator of a party at position `t`; `e` counts the positions the parties have entered. -/
structure AccInv (L : Ledger P) (e : sp.Id → Nat) (i : sp.Id) (t : Nat) (a : Accum P) : Prop where
  provable : ∀ x, a.provable.get? x = none
  unprovable : ∀ x, a.unprovable.get? x = none
  expecting : a.expecting = sc.xAt t i
  notSent : ∀ x, a.notSent.contains x = ((sc.xAt t i).contains x && !a.payloads.contains x)
  payKeys : ∀ x, a.payloads.contains x = true → (sc.xAt t i).contains x = true ∧ t < e x
  processing : ∀ x, a.processing.contains x = true → a.payloads.contains x = true
  payVal : ∀ x v, a.payloads.get? x = some v → PayAt L i t x v
  echos : ∀ k, spot t = (k, false) → sc.echoAt k = true → ∀ x,
    (a.payloads.contains x = true → ∃ cx, (L x)[k]? = some cx ∧ a.echos.get? x = some cx.sEcho) ∧
      (∀ p, a.echos.get? x = some p → a.payloads.contains x = true)
  artifacts : ∀ k c, spot t = (k, false) → (L i)[k]? = some c →
    downcastAll a.artifacts = .ok (c.directs.mapVal (fun _ x => x.2))
  cached : ∀ x en r vm, a.cached.get? x = some en → en.get? r = some vm → (sc.xAt (sc.nxt t i) i).contains x = true ∧
    r = sc.idAt (sc.nxt t i) ∧ sc.nxt t i < e x ∧ ∃ m, vm = verifiedOf x m ∧ sc.MsgAt L x i (sc.nxt t i) m

/-- What is in the ledger was made by the parties. -/
structure LedgerOk (L : Ledger P) : Prop where
  honest : Honest sc.g L.history
  party : ∀ {x : sp.Id} {k : Nat} {c : NCell P}, (L x)[k]? = some c → sc.g.parties.contains x = true
  stage : ∀ {x : sp.Id} {k : Nat} {c : NCell P}, (L x)[k]? = some c → k < sc.n
  signed : ∀ {x : sp.Id} {k : Nat} {c : NCell P}, (L x)[k]? = some c → AuthenticPart x sc.g.sid (sc.rid k) c.sEcho
  part : ∀ {x : sp.Id} {k : Nat} {c : NCell P}, (L x)[k]? = some c → c.sEcho.part = c.echo
  sends : ∀ {x : sp.Id} {k : Nat} {c : NCell P}, (L x)[k]? = some c → (sc.dests k x).isEmpty = false →
    c.echo.payload.isSome = sc.echoAt k
  dests : ∀ {x : sp.Id} {k : Nat} {c : NCell P}, (L x)[k]? = some c → ∀ y, c.directs.contains y = (sc.dests k x).contains y
  comm : ∀ {x : sp.Id} {k : Nat} {c : NCell P}, (L x)[k]? = some c → P.comm c.rd = ⟨sc.dests k x, sc.expects k x, sc.part k x⟩

end Scheme

namespace Scheme

variable {sc : Scheme P}

theorem RoundAt.mono {L L' : Ledger P} (hL : L.Ext L') {i : sp.Id} {t : Nat} {s : Session P}
    (h : sc.RoundAt L i t s) : sc.RoundAt L' i t s := by
  refine ⟨?_, ?_⟩
  · intro k hk
    obtain ⟨c, h1, h2⟩ := h.main k hk
    exact ⟨c, hL _ _ _ h1, h2⟩
  · intro k hk
    obtain ⟨c, e, h1, h2, h3, h4, h5, h6, h7, h8, h9, ⟨ps, h10, h11⟩, h12⟩ := h.echo k hk
    refine ⟨c, e, hL _ _ _ h1, h2, h3, h4, h5, h6, h7, ?_, h9, ⟨ps, h10, h11.mono hL⟩, h12⟩
    intro x hx
    obtain ⟨cx, hc, hb⟩ := h8 x hx
    exact ⟨cx, hL _ _ _ hc, hb⟩

theorem PayAt.mono {L L' : Ledger P} (hL : L.Ext L') {i x : sp.Id} {t : Nat} {v : Option P.Payload}
    (h : PayAt L i t x v) : PayAt L' i t x v := by
  refine ⟨?_⟩
  intro k hk
  obtain ⟨w, c, cx, p, art, h1, h2, h3, h4⟩ := h.main k hk
  exact ⟨w, c, cx, p, art, h1, hL _ _ _ h2, hL _ _ _ h3, h4⟩

theorem SessInv.mono {L L' : Ledger P} (hL : L.Ext L') {i : sp.Id} (hi : L' i = L i) {t : Nat} {s : Session P}
    (h : sc.SessInv L i t s) : sc.SessInv L' i t s := by
  obtain ⟨h1, h2, h3, h4, h5, h6, h7, h8, h9, h10, h11, h12⟩ := h
  exact ⟨h1, h2, h3, h4, h5, h6, by rw [hi]; exact h7, h8, h9, h10, h11.mono hL, h12⟩

theorem AccInv.mono {L L' : Ledger P} (hL : L.Ext L') {i : sp.Id} (hi : L' i = L i) {e e' : sp.Id → Nat}
    (he : ∀ x, e x ≤ e' x) {t : Nat} {a : Accum P} (h : sc.AccInv L e i t a) : sc.AccInv L' e' i t a := by
  obtain ⟨h1, h2, h3, h4, h5, h6, h7, h8, h9, h10⟩ := h
  refine ⟨h1, h2, h3, h4, ?_, h6, fun x v hv => (h7 x v hv).mono hL, ?_, by rw [hi]; exact h9, ?_⟩
  · intro x hx
    exact ⟨(h5 x hx).1, lt_of_lt_of_le (h5 x hx).2 (he x)⟩
  · intro k hk hek x
    refine ⟨?_, (h8 k hk hek x).2⟩
    intro hx
    obtain ⟨cx, hc, hb⟩ := (h8 k hk hek x).1 hx
    exact ⟨cx, hL _ _ _ hc, hb⟩
  · intro x en r vm hx hr
    obtain ⟨g1, g2, g3, m, g4, g5⟩ := h10 x en r vm hx hr
    exact ⟨g1, g2, lt_of_lt_of_le g3 (he x), m, g4, g5.mono hL⟩

end Scheme

namespace Scheme

variable {sc : Scheme P}

/-- Messages of the position are accepted. -/
theorem receives (mt : sp.MetaTotal) (coop : sc.Cooperative) {L : Ledger P} (hL : sc.LedgerOk L)
    {i x : sp.Id} (hi : sc.g.parties.contains i = true) {t : Nat} (hx : (sc.xAt t i).contains x = true) {s : Session P}
    (hs : sc.SessInv L i t s) {m : Message sp} (hm : sc.MsgAt L x i t m) :
    ∃ v, s.round.receive x (verifiedOf x m).dyn = .ok v ∧ PayAt L i t x v := by
  cases hq : spot t with
  | mk k b =>
    cases b with
    | false =>
      obtain ⟨c, hc, hr, -⟩ := hs.round.main k hq
      obtain ⟨cx, art, hcx, -, he, hn, hd⟩ := hm.main k hq
      obtain ⟨v, hv⟩ := coop.receive L.history i x k c.toCell cx.toCell m.direct.part art hL.honest (by
        rw [xAt_main hq] at hx
        exact hx) hi
        (Ledger.history_get hc) (Ledger.history_get hcx) hd
      refine ⟨some v, ?_, ⟨?_⟩⟩
      · rw [hr]
        simp only [SRound.receive, VerifiedMessage.dyn, verifiedOf, he, hn, hv]
      · intro k' hk'
        rw [hq] at hk'
        simp only [Prod.mk.injEq, and_true] at hk'
        subst hk'
        exact ⟨v, c, cx, _, art, rfl, hc, hcx, hd, hv⟩
    | true =>
      obtain ⟨c, e, hc, hr, -, -, -, -, hee, heb, hep, -, -⟩ := hs.round.echo k hq
      obtain ⟨h1, h2, pack, h3, h4, h5⟩ := hm.echo k hq
      refine ⟨none, ?_, ⟨fun k' hk' => by rw [hq] at hk'; simp at hk'⟩⟩
      have hrun := hs.active k hq
      have hkn : k < sc.n := by have := hs.stage; rw [hq] at this; exact this
      rw [xAt_echo hq hrun] at hx
      have hcmp := coop.pattern.compared k i x hkn hi hrun hx
      have hin : ∀ y, sc.compares k i y = true → y = i ∨ (sc.expects k i).contains y = true := by
        intro y hy
        unfold compares at hy
        split at hy
        · exact Or.inr hy
        · simpa using hy
      have hcomp : e.Complete := by
        intro y hy
        rw [hee] at hy
        obtain ⟨cy, -, hy⟩ := heb y (hin y hy)
        exact ⟨_, hy⟩
      have : e.receive x (verifiedOf x m).dyn = .ok () := by
        rw [C18_table mt e hcomp]
        refine .accepted (pack := pack) h1 h2 h3 ?_ ?_
        · intro y
          rw [hee]
          constructor
          · rintro ⟨h, hh⟩
            have := h5 y h hh
            rw [hcmp y] at this
            simpa using this
          · rintro ⟨hy, hne⟩
            obtain ⟨cy, -, h⟩ := h4 y (by rw [hcmp y, hy]; simpa using hne)
            exact ⟨_, h⟩
        · intro y h hh
          have hy := h5 y h hh
          obtain ⟨cy, hcy, hp⟩ := h4 y hy
          rw [hcmp y, Bool.and_eq_true] at hy
          obtain ⟨cy', hcy', hb⟩ := heb y (hin y hy.1)
          rw [hcy] at hcy'
          simp only [Option.some.injEq] at hcy'
          subst hcy'
          rw [hh] at hp
          simp only [Option.some.injEq] at hp
          subst hp
          exact ⟨_, hb, (hL.signed hcy).2, rfl, rfl⟩
      rw [hr]
      simp only [SRound.receive, this]

/-- An accepted message keeps the accumulator in order. -/
theorem AccInv.accept {L : Ledger P} (hL : sc.LedgerOk L) {e : sp.Id → Nat} {i x : sp.Id} {t : Nat} {a : Accum P}
    (h : sc.AccInv L e i t a) (hx : (sc.xAt t i).contains x = true) (hex : t < e x) {m : Message sp}
    (hm : sc.MsgAt L x i t m) {v : Option P.Payload} (hv : PayAt L i t x v) : sc.AccInv L e i t (a.accept x m v) := by
  obtain ⟨h1, h2, h3, h4, h5, h6, h7, h8, h9, h10⟩ := h
  refine ⟨h1, h2, h3, ?_, ?_, ?_, ?_, ?_, h9, h10⟩
  · intro y
    simp only [Accum.accept, BMap.contains_erase, BMap.contains_insert, h4 y]
    by_cases hy : y = x <;> simp [hy]
  · intro y hy
    simp only [Accum.accept, BMap.contains_insert, Bool.or_eq_true, decide_eq_true_eq] at hy
    rcases hy with rfl | hy
    · exact ⟨hx, hex⟩
    · exact h5 y hy
  · intro y hy
    simp only [Accum.accept, BMap.contains_insert, Bool.or_eq_true, decide_eq_true_eq]
    exact Or.inr (h6 y hy)
  · intro y w hw
    simp only [Accum.accept, BMap.get?_insert] at hw
    split at hw
    · rename_i hyx
      simp only [Option.some.injEq] at hw
      subst hw hyx
      exact hv
    · exact h7 y w hw
  · intro k hk hek y
    obtain ⟨cx, art, hcx, he1, he2, -, hdi⟩ := hm.main k hk
    have hne : m.echo.part.isNone = false := by
      have hd := hL.dests hcx i
      rw [BMap.contains_iff.2 ⟨_, hdi⟩] at hd
      have := hL.sends hcx (BMap.isEmpty_eq_false.2 ⟨i, hd.symm⟩)
      rw [hek, ← he2] at this
      simpa [Part.isNone] using this
    have hec : (a.accept x m v).echos = a.echos.insert x cx.sEcho := by
      simp only [Accum.accept, Accum.insertPart, hne, Bool.false_eq_true, if_false]
      rw [he1]
    rw [hec]
    simp only [Accum.accept, BMap.contains_insert, BMap.get?_insert]
    by_cases hy : y = x
    · subst hy
      simp [hcx]
    · simp only [hy, decide_false, Bool.false_or, if_false]
      exact h8 k hk hek y

theorem AccInv.mark {L : Ledger P} {e : sp.Id → Nat} {i x : sp.Id} {t : Nat} {a : Accum P}
    (h : sc.AccInv L e i t a) (hx : a.payloads.contains x = true) :
    sc.AccInv L e i t { a with processing := BSet.insert a.processing x } := by
  obtain ⟨h1, h2, h3, h4, h5, h6, h7, h8, h9, h10⟩ := h
  refine ⟨h1, h2, h3, h4, h5, ?_, h7, h8, h9, h10⟩
  intro y hy
  simp only [BSet.contains_insert, Bool.or_eq_true, decide_eq_true_eq] at hy
  rcases hy with rfl | hy
  · exact hx
  · exact h6 y hy

/-- Applying the messages kept for the round. -/
theorem applies (mt : sp.MetaTotal) (coop : sc.Cooperative) {L : Ledger P} (hL : sc.LedgerOk L)
    {e : sp.Id → Nat} {i : sp.Id} (hi : sc.g.parties.contains i = true) {t : Nat} {s : Session P} (hs : sc.SessInv L i t s)
    {cs : List (VerifiedMessage sp)} (hnd : (cs.map (fun m => m.sender)).Nodup)
    (hcs : ∀ vm ∈ cs, (sc.xAt t i).contains vm.sender = true ∧ t < e vm.sender ∧
      ∃ m, vm = verifiedOf vm.sender m ∧ sc.MsgAt L vm.sender i t m)
    {a : Accum P} (ha : sc.AccInv L e i t a) (hp : ∀ vm ∈ cs, a.payloads.contains vm.sender = false) :
    ∃ a', foldE (applyVerified s) a cs = .ok a' ∧ sc.AccInv L e i t a' ∧ a'.cached = a.cached ∧
      ∀ x, a'.payloads.contains x = (a.payloads.contains x || decide (x ∈ cs.map (fun m => m.sender))) := by
  induction cs generalizing a with
  | nil => exact ⟨a, rfl, ha, rfl, by simp⟩
  | cons vm cs ih =>
    simp only [List.map_cons, List.nodup_cons] at hnd
    obtain ⟨h1, h2, m, h3, h4⟩ := hcs vm (List.mem_cons_self ..)
    have hpx := hp vm (List.mem_cons_self ..)
    obtain ⟨v, hv, hpv⟩ := receives mt coop hL hi h1 hs h4
    have hap : applyVerified s a vm = .ok (a.accept vm.sender m v) := by
      have := applyVerified_accepts (s := s) (m := m) hpx (by rw [ha.notSent, h1, hpx]; rfl) hv
      rwa [← h3] at this
    have hc : ∀ y, (a.accept vm.sender m v).payloads.contains y = (decide (y = vm.sender) || a.payloads.contains y) := by
      intro y
      simp [Accum.accept]
    obtain ⟨a', g1, g2, g3, g4⟩ := ih hnd.2 (fun w hw => hcs w (List.mem_cons_of_mem _ hw)) (ha.accept hL h1 h2 h4 hpv) (by
      intro w hw
      have hne : w.sender ≠ vm.sender := fun h => hnd.1 (h ▸ List.mem_map_of_mem hw)
      rw [hc]
      simp [hne, hp w (List.mem_cons_of_mem _ hw)])
    refine ⟨a', ?_, g2, g3, ?_⟩
    · simp only [foldE, hap]
      exact g1
    · intro y
      rw [g4, hc]
      simp only [List.map_cons, List.mem_cons, Bool.decide_or]
      cases a.payloads.contains y <;> cases decide (y = vm.sender) <;> simp

end Scheme

namespace Scheme

variable {sc : Scheme P}

/-- A new accumulator is in order. -/
theorem AccInv.fresh {L : Ledger P} {e : sp.Id → Nat} {i : sp.Id} {t : Nat} {as : BMap sp.Id (Option P.Artifact)}
    (has : ∀ k c, spot t = (k, false) → (L i)[k]? = some c → downcastAll as = .ok (c.directs.mapVal (fun _ x => x.2))) :
    sc.AccInv L e i t { (Accum.new (sc.xAt t i) : Accum P) with artifacts := as } := by
  refine ⟨?_, ?_, rfl, ?_, ?_, ?_, ?_, ?_, has, ?_⟩ <;> simp [Accum.new]

/-- What is kept for the position: messages of it, at most one per party. -/
structure Kept (L : Ledger P) (e : sp.Id → Nat) (i : sp.Id) (t : Nat) (cs : List (VerifiedMessage sp)) : Prop where
  nodup : (cs.map (fun m => m.sender)).Nodup
  good : ∀ vm ∈ cs, (sc.xAt t i).contains vm.sender = true ∧ t < e vm.sender ∧
    ∃ m, vm = verifiedOf vm.sender m ∧ sc.MsgAt L vm.sender i t m

theorem Kept.mono {L L' : Ledger P} (hL : L.Ext L') {e : sp.Id → Nat} {i : sp.Id} {t : Nat} {cs : List (VerifiedMessage sp)}
    (h : sc.Kept L e i t cs) : sc.Kept L' e i t cs := by
  refine ⟨h.nodup, ?_⟩
  intro vm hvm
  obtain ⟨h1, h2, m, h3, h4⟩ := h.good vm hvm
  exact ⟨h1, h2, m, h3, h4.mono hL⟩

/-- The assumptions about the environment and the protocol. -/
structure Ok (sc : Scheme P) : Prop where
  env : sp.EnvOk
  sign : sp.SignCorrect
  srt : sp.SigRoundTrip
  ert : sp.EchoRoundTrip
  keys : sc.g.KeysMatch
  coop : sc.Cooperative

/-- Entering a round of the protocol. -/
theorem enterMain (ok : sc.Ok) {L : Ledger P} (hL : sc.LedgerOk L) {e : sp.Id → Nat} {i : sp.Id}
    (hi : sc.g.parties.contains i = true) {t k : Nat} (hq : spot t = (k, false)) (hk : k < sc.n) (hlen : (L i).length = k)
    {r : P.Rd} (hr : Entering sc.g L.history i r) {tr : Transcript sp} (htr : sc.TrOk t tr) {cs : List (VerifiedMessage sp)}
    (hcs : sc.Kept L e i t cs) (rng rng' : sp.Rng) :
    ∃ s a c out, Session.newForNextRound rng sc.g.sid (sc.g.signer i) (.main r) tr = .ok s ∧
      startRound s rng' cs = .ok (a, out) ∧ sc.LedgerOk (Function.update L i (L i ++ [c])) ∧
      sc.SessInv (Function.update L i (L i ++ [c])) i t s ∧ sc.AccInv (Function.update L i (L i ++ [c])) e i t a ∧
      a.cached = BMap.empty ∧ (∀ x, a.payloads.contains x = decide (x ∈ cs.map (fun m => m.sender))) ∧
      out.map (fun m => m.destination) = (sc.dAt t i).elems ∧
      ∀ m ∈ out, sc.MsgAt (Function.update L i (L i ++ [c])) i m.destination t m := by
  have coop := ok.coop
  have hlen' : (L.history i).length = k := by simp [Ledger.history, hlen]
  have hid := coop.id _ _ _ hL.honest hi hr
  have hcomm := coop.comm _ _ _ hL.honest hi hr
  have hch := coop.child _ _ _ hL.honest hi hr
  have hme := coop.makeEcho _ _ _ hL.honest hi hr
  have hmn := coop.makeNormal _ _ _ hL.honest hi hr
  have hmd := coop.makeDirect _ _ _ hL.honest hi hr
  rw [hlen'] at hid hch hme hcomm hmn hmd
  have hdA : sc.dAt t i = sc.dests k i := dAt_main hq
  have hxA : sc.xAt t i = sc.expects k i := xAt_main hq
  -- the session
  have hs : ∃ s, Session.newForNextRound rng sc.g.sid (sc.g.signer i) (.main r) tr = .ok s := by
    unfold Session.newForNextRound
    simp only [SRound.transition, SRound.comm, hcomm, SRound.makeEcho, SRound.makeNormal]
    have h2' : ∃ p, (if (sc.dests k i).isEmpty then Except.ok Part.none else P.makeEcho r (sp.fork rng 0)) = .ok p := by
      split
      · exact ⟨_, rfl⟩
      · rename_i h
        obtain ⟨p, hp, -⟩ := hme (by simpa using h) (sp.fork rng 0)
        exact ⟨p, hp⟩
    have h3' : ∃ p, (if (sc.dests k i).isEmpty then Except.ok Part.none else P.makeNormal r (sp.fork rng 2)) = .ok p := by
      split
      · exact ⟨_, rfl⟩
      · rename_i h
        exact hmn (by simpa using h) (sp.fork rng 2)
    obtain ⟨ec, h2'⟩ := h2'
    obtain ⟨no, h3'⟩ := h3'
    obtain ⟨qe, hqe⟩ := sign_total ok.env (sp.fork rng 1) (sc.g.signer i) sc.g.sid (P.transition r).id ec
    obtain ⟨qn, hqn⟩ := sign_total ok.env (sp.fork rng 3) (sc.g.signer i) sc.g.sid (P.transition r).id no
    simp only [h2', hqe, h3', hqn]
    exact ⟨_, rfl⟩
  obtain ⟨s, hs⟩ := hs
  have hn := newForNextRound_ok hs
  have hp := hn.proper
  obtain ⟨htrans, hcm⟩ := roundId_main hp hn.round
  have hcm' : s.comm = ⟨sc.dests k i, sc.expects k i, sc.part k i⟩ := by rw [hcm, hcomm]
  have hsid : s.transition.id = sc.idAt t := by
    rw [htrans, hid, ← posId_main (coop.notEcho k hk)]
    simp only [Scheme.idAt, hq]
  have hmei : s.me = i := by rw [hn.me, ok.keys i hi]
  -- the broadcasts
  have hpart : (((sc.dests k i).isEmpty = true → s.echo.part = Part.none ∧ s.normal.part = Part.none) ∧
      ((sc.dests k i).isEmpty = false → ∃ rng, P.makeEcho r rng = .ok s.echo.part) ∧
      ((sc.dests k i).isEmpty = false → ∃ rng, P.makeNormal r rng = .ok s.normal.part)) := by
    obtain ⟨r1, h1⟩ := hn.echoPart
    obtain ⟨r2, h2⟩ := hn.normalPart
    rw [hcm'] at h1 h2
    simp only [SRound.makeEcho, SRound.makeNormal] at h1 h2
    refine ⟨?_, ?_, ?_⟩
    · intro h
      simp only [h, if_true, Except.ok.injEq] at h1 h2
      exact ⟨h1.symm, h2.symm⟩
    · intro h
      simp only [h, Bool.false_eq_true, if_false] at h1
      exact ⟨_, h1⟩
    · intro h
      simp only [h, Bool.false_eq_true, if_false] at h2
      exact ⟨_, h2⟩
  have hsome : (sc.dests k i).isEmpty = false → s.echo.part.payload.isSome = sc.echoAt k := by
    intro hem
    obtain ⟨r1, h1⟩ := hpart.2.1 hem
    obtain ⟨p, h2, h3⟩ := hme hem r1
    rw [h1] at h2
    simp only [Except.ok.injEq] at h2
    rw [h2]
    exact h3
  -- the direct messages
  obtain ⟨ws, hw1, hw2, hw3⟩ := sendAll_run ok.env (s := s) (rng := rng') (i := 0) (a := s.makeAccum)
    (ds := s.destinations.elems) (BSet.elems_nodup _) (by intro d _; simp [Session.makeAccum, Accum.new]) (by
      intro d hd rng
      have hd' : (sc.dests k i).contains d = true := by
        rw [BSet.mem_elems] at hd
        simpa [Session.destinations, hcm'] using hd
      obtain ⟨⟨p, v⟩, hx⟩ := hmd d hd' rng
      rw [hn.round]
      exact ⟨(p, some v), by simp [SRound.makeDirect, hx]⟩)
  have hdest : s.destinations = sc.dests k i := by simp [Session.destinations, hcm']
  rw [hdest] at hw1
  obtain ⟨vs, rfl⟩ := exists_somes (l := ws) (by
    intro w hw
    obtain ⟨rr, hd⟩ := (hw2 w hw).direct
    rw [hn.round] at hd
    obtain ⟨v, hv, -⟩ := main_makeDirect hd
    exact ⟨v, hv⟩)
  have hvd : vs.map (fun v => v.1.destination) = (sc.dests k i).elems := by
    rw [← hw1, List.map_map]
    rfl
  obtain ⟨D, hD, hDa⟩ := sent_directs (vs := vs) (by rw [hvd]; exact BSet.elems_nodup _)
  have hDc : ∀ y, D.contains y = (sc.dests k i).contains y := by
    intro y
    rw [Bool.eq_iff_iff, ← BSet.mem_elems, ← hvd, BMap.contains_iff, List.mem_map]
    constructor
    · rintro ⟨x, hx⟩
      obtain ⟨v, hv, he, -⟩ := (hD _ _).1 hx
      exact ⟨v, hv, he⟩
    · rintro ⟨v, hv, he⟩
      exact ⟨_, (hD _ _).2 ⟨v, hv, he, rfl⟩⟩
  let c : NCell P := ⟨⟨r, s.echo.part, s.normal.part, D⟩, s.echo⟩
  have hcget : (Function.update L i (L i ++ [c]) i)[k]? = some c := by
    rw [Function.update_self, ← hlen]
    simp
  have hext : L.Ext (Function.update L i (L i ++ [c])) := L.ext_snoc i c
  have hechoAuth : AuthenticPart i sc.g.sid (sc.idAt t) s.echo := by
    obtain ⟨r1, h1⟩ := hn.echo
    have := signed_valid ok.sign ok.srt h1
    rwa [ok.keys i hi, hsid] at this
  have hnormAuth : AuthenticPart i sc.g.sid (sc.idAt t) s.normal := by
    obtain ⟨r1, h1⟩ := hn.normal
    have := signed_valid ok.sign ok.srt h1
    rwa [ok.keys i hi, hsid] at this
  have hidk : sc.idAt t = sc.rid k := by
    rw [← posId_main (coop.notEcho k hk)]
    simp only [Scheme.idAt, hq]
  have hL' : sc.LedgerOk (Function.update L i (L i ++ [c])) := by
    have hcase : ∀ {x : sp.Id} {l : Nat} {d : NCell P}, (Function.update L i (L i ++ [c]) x)[l]? = some d →
        (L x)[l]? = some d ∨ (x = i ∧ l = k ∧ d = c) := by
      intro x l d h
      by_cases hx : x = i
      · subst hx
        rw [Function.update_self] at h
        rcases Nat.lt_trichotomy l (L x).length with hl | hl | hl
        · rw [List.getElem?_append_left hl] at h
          exact Or.inl h
        · rw [List.getElem?_append_right (by omega)] at h
          subst hl
          simp only [Nat.sub_self, List.getElem?_cons_zero, Option.some.injEq] at h
          exact Or.inr ⟨rfl, hlen, h.symm⟩
        · rw [List.getElem?_eq_none (by simp; omega)] at h
          simp at h
      · rw [Function.update_of_ne hx] at h
        exact Or.inl h
    refine ⟨?_, ?_, ?_, ?_, ?_, ?_, ?_, ?_⟩
    · rw [Ledger.history_snoc]
      have hcd : (P.comm c.rd).destinations = sc.dests k i := by rw [show P.comm c.rd = _ from hcomm]
      refine .enter hL.honest hi hr ⟨by rw [hcd]; exact hpart.1, by rw [hcd]; exact hpart.2.1, by rw [hcd]; exact hpart.2.2,
        by rw [hcd]; exact hDc, ?_⟩
      intro j x hx
      obtain ⟨v, hv, rfl, rfl⟩ := (hD _ _).1 hx
      obtain ⟨rr, hd⟩ := (hw2 (v.1, some v.2) (List.mem_map.2 ⟨v, hv, rfl⟩)).direct
      rw [hn.round] at hd
      obtain ⟨w, h1, h2⟩ := main_makeDirect hd
      simp only [Option.some.injEq] at h1
      rw [← h1] at h2
      exact ⟨rr, h2⟩
    · intro x l d h
      rcases hcase h with h | ⟨rfl, rfl, rfl⟩
      · exact hL.party h
      · exact hi
    · intro x l d h
      rcases hcase h with h | ⟨rfl, rfl, rfl⟩
      · exact hL.stage h
      · exact hk
    · intro x l d h
      rcases hcase h with h | ⟨rfl, rfl, rfl⟩
      · exact hL.signed h
      · rw [← hidk]
        exact hechoAuth
    · intro x l d h
      rcases hcase h with h | ⟨rfl, rfl, rfl⟩
      · exact hL.part h
      · rfl
    · intro x l d h
      rcases hcase h with h | ⟨rfl, rfl, rfl⟩
      · exact hL.sends h
      · exact hsome
    · intro x l d h
      rcases hcase h with h | ⟨rfl, rfl, rfl⟩
      · exact hL.dests h
      · exact hDc
    · intro x l d h
      rcases hcase h with h | ⟨rfl, rfl, rfl⟩
      · exact hL.comm h
      · exact hcomm
  have hsess : sc.SessInv (Function.update L i (L i ++ [c])) i t s := by
    refine ⟨hp, hn.sessionId, hn.signer, hsid, by rw [hq]; exact hk, fun k' hk' => by rw [hq] at hk'; simp at hk',
      by rw [Function.update_self, hq]; simp [hlen], by rw [hcm', hdA, hxA]; simp [pAt, hq], ?_, ?_, ?_, ?_⟩
    · intro h1
      rw [hq] at h1 ⊢
      rw [htrans]
      exact hch h1
    · rw [hn.echoInfo, hcm']
      have hnx : (spot (sc.nxt t i)).2 = sc.runsEcho k i := by
        simp only [nxt, hq]
        cases sc.runsEcho k i with
        | true => rw [if_pos rfl, (spot_echo (k := k)).2 rfl]
        | false => rw [if_neg (by simp), (spot_main (k := k + 1)).2 (by omega)]
      rw [hnx]
      unfold Session.makeEchoInfo runsEcho
      simp only
      cases sc.part k i with
      | default =>
        simp only
        cases hem : (sc.dests k i).isEmpty with
        | true =>
          rw [(hpart.1 hem).1]
          simp [Part.isNone, Part.none]
        | false =>
          have : s.echo.part.isNone = !sc.echoAt k := by
            rw [← hsome hem]
            simp [Part.isNone]
          rw [this]
          cases sc.echoAt k <;> simp
      | send => rfl
      | receive ts => rfl
    · refine ⟨?_, ?_⟩
      · intro k' hk'
        rw [hq] at hk'
        simp only [Prod.mk.injEq, and_true] at hk'
        subst hk'
        exact ⟨c, hcget, hn.round, rfl, rfl, rfl⟩
      · intro k' hk'
        rw [hq] at hk'
        simp at hk'
    · rw [hn.transcript]
      exact htr
  have hacc : sc.AccInv (Function.update L i (L i ++ [c])) e i t
      { (Accum.new (sc.expects k i) : Accum P) with
        artifacts := List.foldl (fun m w => m.insert w.1.destination w.2) BMap.empty (vs.map (fun v => (v.1, some v.2))) } := by
    rw [← hxA]
    refine AccInv.fresh ?_
    intro k' c' hk' hc'
    rw [hq] at hk'
    simp only [Prod.mk.injEq, and_true] at hk'
    subst hk'
    rw [hcget] at hc'
    simp only [Option.some.injEq] at hc'
    subst hc'
    exact hDa
  obtain ⟨a', g1, g2, g3, g4⟩ := applies ok.env.serMeta coop hL' hi hsess hcs.nodup ((hcs.mono hext).good) hacc (by
    intro vm _
    simp [Accum.new])
  refine ⟨s, a', c, (vs.map (fun v => (v.1, some v.2))).map Prod.fst, hs, ?_, hL', hsess, g2, ?_, ?_, ?_, ?_⟩
  · unfold startRound
    rw [hw3]
    have hmk : s.makeAccum = (Accum.new (sc.expects k i) : Accum P) := by
      simp [Session.makeAccum, hcm']
    rw [hmk]
    simp only
    have : (Accum.new (sc.expects k i) : Accum P).artifacts = BMap.empty := rfl
    rw [this, g1]
  · rw [g3]
    rfl
  · intro x
    rw [g4]
    simp [Accum.new]
  · rw [List.map_map, List.map_map, hdA]
    exact hvd
  · intro m hm
    simp only [List.map_map, List.mem_map] at hm
    obtain ⟨v, hv, rfl⟩ := hm
    have hmade := hw2 (v.1, some v.2) (List.mem_map.2 ⟨v, hv, rfl⟩)
    simp only [Function.comp] at hmade ⊢
    refine ⟨rfl, ⟨?_, ?_, ?_⟩, ?_, ?_⟩
    · obtain ⟨r1, h1⟩ := hmade.signed
      have := signed_valid ok.sign ok.srt h1
      rwa [hn.signer, hn.sessionId, ok.keys i hi, hsid] at this
    · rw [hmade.echo]
      exact hechoAuth
    · rw [hmade.normal]
      exact hnormAuth
    · intro k' hk'
      rw [hq] at hk'
      simp only [Prod.mk.injEq, and_true] at hk'
      subst hk'
      exact ⟨c, v.2, hcget, hmade.echo, by rw [hmade.echo], by rw [hmade.normal], (hD _ _).2 ⟨v, hv, rfl, rfl⟩⟩
    · intro k' hk'
      rw [hq] at hk'
      simp at hk'

/-- The transcript can be updated at the end of the position. -/
theorem updates (ok : sc.Ok) {L : Ledger P} {e : sp.Id → Nat} {i : sp.Id} {t : Nat} {s : Session P} {a : Accum P}
    (hs : sc.SessInv L i t s) (ha : sc.AccInv L e i t a)
    (hall : ∀ x, a.payloads.contains x = (sc.xAt t i).contains x) :
    ∃ tr, s.updatedTranscript a = .ok tr ∧ sc.TrOk (sc.nxt t i) tr ∧
      tr.echos.get? s.roundId = some (a.echos.insert s.me s.echo) := by
  have e1 : a.provable = BMap.empty := BMap.eq_empty_iff.2 ha.provable
  have e2 : a.unprovable = BMap.empty := BMap.eq_empty_iff.2 ha.unprovable
  have e3 : a.notSent.isEmpty = true := by
    rw [BMap.isEmpty_iff_contains]
    intro x
    rw [ha.notSent, hall]
    cases (sc.xAt t i).contains x <;> rfl
  have hid : s.roundId = sc.idAt t := hs.rid
  have hfresh : s.transcript.echos.contains s.roundId = false ∧ s.transcript.normals.contains s.roundId = false ∧
      s.transcript.directs.contains s.roundId = false := by
    by_contra hc
    have : s.transcript.echos.contains s.roundId = true ∨ s.transcript.normals.contains s.roundId = true ∨
        s.transcript.directs.contains s.roundId = true := by
      revert hc
      cases s.transcript.echos.contains s.roundId <;> cases s.transcript.normals.contains s.roundId <;>
        cases s.transcript.directs.contains s.roundId <;> simp
    obtain ⟨t', ht', hr⟩ := hs.transcript.fresh _ this
    rw [hid] at hr
    have hst := spot_mono (Nat.le_of_lt ht')
    have := posId_inj ok.coop.ids ok.coop.notEcho hs.stage (lt_of_le_of_lt hst hs.stage) hr
    have := spot_inj this
    omega
  obtain ⟨f1, f2, f3⟩ := hfresh
  have f4 : s.transcript.missing.contains s.roundId = false := by rw [hs.transcript.missing]; rfl
  have m1 : Transcript.mergeErrors .transcriptProvable s.transcript.provable a.provable = .ok s.transcript.provable := by
    rw [e1]; rfl
  have m2 : Transcript.mergeErrors .transcriptUnprovable s.transcript.unprovable a.unprovable =
      .ok s.transcript.unprovable := by
    rw [e2]; rfl
  refine ⟨⟨s.transcript.echos.insert s.roundId (a.echos.insert s.me s.echo), s.transcript.normals.insert s.roundId a.normals,
    s.transcript.directs.insert s.roundId a.directs, s.transcript.provable, s.transcript.unprovable, s.transcript.missing⟩, ?_, ?_, ?_⟩
  · unfold Session.updatedTranscript Transcript.update
    simp only [f1, f2, f3, f4, m1, m2, e3, Bool.false_eq_true, if_false, if_true]
  · refine ⟨hs.transcript.provable, hs.transcript.unprovable, hs.transcript.missing, ?_⟩
    intro r hr
    simp only [BMap.contains_insert, Bool.or_eq_true, decide_eq_true_eq] at hr
    have hlt := lt_nxt (sc := sc) t i
    by_cases hrr : r = s.roundId
    · exact ⟨t, by omega, by rw [hrr, hid]⟩
    · simp only [hrr, false_or] at hr
      obtain ⟨t', ht', h⟩ := hs.transcript.fresh r hr
      exact ⟨t', by omega, h⟩
  · simp

/-- What was kept for the next position. -/
theorem kept (ok : sc.Ok) {L : Ledger P} {e : sp.Id → Nat} {i : sp.Id} {t : Nat} {a : Accum P} (ha : sc.AccInv L e i t a) :
    sc.Kept L e i (sc.nxt t i) (Accum.filterMessages a.cached (sc.idAt (sc.nxt t i))) ∧
      ∀ x, x ∈ (Accum.filterMessages a.cached (sc.idAt (sc.nxt t i))).map (fun m => m.sender) ↔ IsCached a x (sc.idAt (sc.nxt t i)) := by
  have hsend : ∀ x m, a.cached.get? x = some m → ∀ r vm, m.get? r = some vm → vm.sender = x := by
    intro x m hx r vm hm
    obtain ⟨-, -, -, w, rfl, -⟩ := ha.cached x m r vm hx hm
    rfl
  refine ⟨⟨filterMessages_nodup hsend, ?_⟩, ?_⟩
  · intro vm hvm
    obtain ⟨x, en, hx, hr⟩ := mem_filterMessages.1 hvm
    obtain ⟨h1, -, h3, m, rfl, h4⟩ := ha.cached x en _ vm hx hr
    exact ⟨h1, h3, m, rfl, h4⟩
  · intro x
    simp only [List.mem_map]
    constructor
    · rintro ⟨vm, hvm, rfl⟩
      obtain ⟨x, en, hx, hr⟩ := mem_filterMessages.1 hvm
      rw [hsend x en hx _ vm hr]
      exact ⟨en, vm, hx, hr⟩
    · rintro ⟨en, vm, hx, hr⟩
      exact ⟨vm, mem_filterMessages.2 ⟨x, en, hx, hr⟩, hsend x en hx _ vm hr⟩

theorem others_contains {g : Group P} {i x : sp.Id} : (g.others i).contains x = true ↔ x ≠ i ∧ g.parties.contains x = true := by
  simp [Group.others]

/-- The payloads of a complete position. -/
theorem payloads_of {L : Ledger P} (hL : sc.LedgerOk L) {e : sp.Id → Nat} {i : sp.Id} {t k : Nat} (hq : spot t = (k, false)) {a : Accum P} {c : NCell P}
    (hc : (L i)[k]? = some c) (ha : sc.AccInv L e i t a) (hall : ∀ x, a.payloads.contains x = (sc.xAt t i).contains x) :
    ∃ ps, downcastAll a.payloads = .ok ps ∧ PayloadsOf L.history i k ps := by
  obtain ⟨ps, h1, h2⟩ := downcastAll_total (m := a.payloads) (by
    intro x v hv
    obtain ⟨w, c, cx, p, art, rfl, -⟩ := (ha.payVal x v hv).main k hq
    exact ⟨w, rfl⟩)
  refine ⟨ps, h1, ?_, ?_⟩
  · refine ⟨_, Ledger.history_get hc, ?_⟩
    intro j
    rw [hL.comm hc, ← show sc.xAt t i = sc.expects k i from xAt_main hq,
      ← hall, Bool.eq_iff_iff, BMap.contains_iff, BMap.contains_iff]
    constructor
    · rintro ⟨v, hv⟩
      exact ⟨_, (h2 j v).1 hv⟩
    · rintro ⟨v, hv⟩
      obtain ⟨w, c, cx, p, art, rfl, -⟩ := (ha.payVal j v hv).main k hq
      exact ⟨w, (h2 j w).2 hv⟩
  · intro j v hv
    obtain ⟨w, c, cx, p, art, h3, h4, h5, h6, h7⟩ := (ha.payVal j _ ((h2 j v).1 hv)).main k hq
    simp only [Option.some.injEq] at h3
    subst h3
    exact ⟨_, _, p, art, Ledger.history_get h4, Ledger.history_get h5, h6, h7⟩

/-- Going from a round to its echo round. -/
theorem enterEcho (ok : sc.Ok) {L : Ledger P} (hL : sc.LedgerOk L) {e : sp.Id → Nat} {i : sp.Id}
    (hi : sc.g.parties.contains i = true) {t k : Nat} (hq : spot t = (k, false)) (hrun : sc.runsEcho k i = true)
    {s : Session P} {a : Accum P} (hs : sc.SessInv L i t s) (ha : sc.AccInv L e i t a)
    (hall : ∀ x, a.payloads.contains x = (sc.xAt t i).contains x) (rng rng' : sp.Rng) :
    ∃ s' a' out, s.finalizeRound rng a = .ok (.anotherRound s' (Accum.filterMessages a.cached (sc.idAt (sc.nxt t i)))) ∧
      startRound s' rng' (Accum.filterMessages a.cached (sc.idAt (sc.nxt t i))) = .ok (a', out) ∧
      sc.SessInv L i (sc.nxt t i) s' ∧ sc.AccInv L e i (sc.nxt t i) a' ∧ a'.cached = BMap.empty ∧
      (∀ x, a'.payloads.contains x = true ↔ IsCached a x (sc.idAt (sc.nxt t i))) ∧
      out.map (fun m => m.destination) = (sc.dAt (sc.nxt t i) i).elems ∧ ∀ m ∈ out, sc.MsgAt L i m.destination (sc.nxt t i) m := by
  have coop := ok.coop
  have hq' : spot (sc.nxt t i) = (k, true) := by
    rw [spot_echo]
    simp only [nxt, hq, hrun, if_true]
  have hkn : k < sc.n := by have := hs.stage; rw [hq] at this; exact this
  have hek := coop.pattern.echoStage k i hkn hi hrun
  have hne := coop.notEcho k hkn
  have hxA : sc.xAt t i = sc.expects k i := xAt_main hq
  have hdA' : sc.dAt (sc.nxt t i) i = sc.peers k i := dAt_echo hq' hrun
  have hxA' : sc.xAt (sc.nxt t i) i = sc.peers k i := xAt_echo hq' hrun
  have hidk : s.transition.id = sc.rid k := by
    rw [hs.rid, ← posId_main hne]
    simp only [Scheme.idAt, hq]
  have hid' : sc.idAt (sc.nxt t i) = posId sc.rid (k, true) := by
    simp only [Scheme.idAt, hq']
  obtain ⟨tr, hu, htr, hte⟩ := updates ok hs ha hall
  obtain ⟨c, hc, hr, hec, hecp, hnop⟩ := hs.round.main k hq
  obtain ⟨htrans, -⟩ := roundId_main hs.proper hr
  have hme : s.me = i := by rw [hs.proper.me, hs.signer, ok.keys i hi]
  have hinfo : ∃ E, s.echoInfo = some ⟨sc.peers k i, sc.peers k i, E⟩ ∧ ∀ x, BMap.contains E x = sc.compares k i x := by
    have hp : s.comm = ⟨sc.dests k i, sc.expects k i, sc.part k i⟩ := by
      rw [hs.comm, dAt_main hq, hxA]
      simp [pAt, hq]
    rw [hs.proper.echoInfo, hp, hme]
    unfold Session.makeEchoInfo peers compares
    simp only
    unfold runsEcho at hrun
    cases hpt : sc.part k i with
    | default =>
      simp only [hpt, Bool.and_eq_true, Bool.not_eq_true'] at hrun
      have hnone : s.echo.part.isNone = false := by
        have := hL.sends hc hrun.2
        rw [hek, ← hecp] at this
        simpa [Part.isNone] using this
      simp only [hnone, Bool.not_false, if_true]
      exact ⟨_, rfl, fun x => by simp⟩
    | send => simp [hpt] at hrun
    | receive ts => exact ⟨_, rfl, fun x => rfl⟩
  obtain ⟨E, hinfo, hE⟩ := hinfo
  let er : EchoRd P := ⟨s.me, a.echos.insert s.me s.echo, ⟨sc.peers k i, sc.peers k i, E⟩, c.rd,
    a.payloads, a.artifacts⟩
  have htre : (SRound.echo er).transition = .ok
      { id := posId sc.rid (k, true), parents := BSet.ofList [(P.transition c.rd).id], siblings := BMap.empty,
        children := (P.transition c.rd).children, mayProduceResult := (P.transition c.rd).mayProduceResult } := by
    simp only [SRound.transition, EchoRd.transition, TransitionInfo.echo]
    have : (P.transition c.rd).id.echo = .ok (posId sc.rid (k, true)) := by
      rw [← htrans, hidk]
      exact posId_echo hne
    simp only [er, this]
    rfl
  have hs' : ∃ s', Session.newForNextRound (sp.fork rng 1) s.sessionId s.signer (.echo er) tr = .ok s' := by
    refine next_total ok.env ⟨_, htre⟩ (fun _ => ⟨_, rfl⟩) ?_
    intro rng
    obtain ⟨b, hb⟩ := ok.env.serEcho er.pack.toList
    have hv : er.echoBroadcasts.contains er.verifier = true := by simp [er]
    simp only [SRound.makeNormal, EchoRd.makeNormal, hv, if_true, SP.serEcho, hb]
    exact ⟨_, rfl⟩
  obtain ⟨s', hs'⟩ := hs'
  have hn := newForNextRound_ok hs'
  have hp := hn.proper
  have hst : s'.transition.id = sc.idAt (sc.nxt t i) := by
    have := hn.transition
    rw [htre] at this
    simp only [Except.ok.injEq] at this
    rw [← this, hid']
  have hfin : s.finalizeRound rng a = .ok (.anotherRound s' (Accum.filterMessages a.cached (sc.idAt (sc.nxt t i)))) := by
    unfold Session.finalizeRound
    simp only [hu, hinfo, hr, Session.startEcho, Transcript.echoBroadcasts, hte, okOr]
    have : (SRound.echo ⟨s.me, a.echos.insert s.me s.echo, ⟨sc.peers k i, sc.peers k i, E⟩, c.rd,
      a.payloads, a.artifacts⟩ : SRound P) = .echo er := rfl
    rw [this]
    simp only [htre, hs', hid']
  have hcomm : s'.comm = CommInfo.regular (sc.peers k i) := by rw [hn.comm]; rfl
  -- the broadcasts held by the echo round
  have hb1 : ∀ x, x = i ∨ (sc.expects k i).contains x = true →
      ∃ cx, (L x)[k]? = some cx ∧ er.echoBroadcasts.get? x = some cx.sEcho := by
    intro x hx
    by_cases hxi : x = i
    · subst hxi
      refine ⟨c, hc, ?_⟩
      simp [er, hme, hec]
    · have := (ha.echos k hq hek x).1 (by rw [hall, hxA]; exact hx.resolve_left hxi)
      obtain ⟨cx, h1, h2⟩ := this
      refine ⟨cx, h1, ?_⟩
      simp only [er, hme, BMap.get?_insert, hxi, if_false]
      exact h2
  have hb2 : ∀ x p, er.echoBroadcasts.get? x = some p → x = i ∨ (sc.expects k i).contains x = true := by
    intro x p hx
    by_cases hxi : x = i
    · exact Or.inl hxi
    · simp only [er, hme, BMap.get?_insert, hxi, if_false] at hx
      have := (ha.echos k hq hek x).2 p hx
      rw [hall, hxA] at this
      exact Or.inr this
  have hsess : sc.SessInv L i (sc.nxt t i) s' := by
    refine ⟨hp, by rw [hn.sessionId, hs.sid], by rw [hn.signer, hs.signer], hst, by rw [hq']; exact hkn,
      nxt_active t i, by rw [hs.len, hq, hq'], by rw [hcomm, hdA', hxA']; simp [pAt, hq', CommInfo.regular], ?_, ?_, ?_,
      by rw [hn.transcript]; exact htr⟩
    · intro h1
      rw [hq'] at h1 ⊢
      have := hn.transition
      rw [htre] at this
      simp only [Except.ok.injEq] at this
      rw [← this]
      simp only
      rw [← htrans]
      have := hs.next
      rw [hq] at this
      exact this h1
    · rw [echo_echoInfo hp hn.round]
      have : spot (sc.nxt (sc.nxt t i) i) = (k + 1, false) := by
        rw [spot_main]
        simp only [nxt] at hq' ⊢
        rw [hq']
        simp only
        omega
      rw [this]
      rfl
    · refine ⟨fun k' hk' => by rw [hq'] at hk'; simp at hk', ?_⟩
      intro k' hk'
      rw [hq'] at hk'
      simp only [Prod.mk.injEq, and_true] at hk'
      subst hk'
      exact ⟨c, er, hc, hn.round, rfl, hme, rfl, rfl, hE, hb1, hb2, payloads_of hL hq hc ha hall, ha.artifacts k c hq hc⟩
  -- the messages
  have hpay : ∃ b, sp.serEcho er.pack = .ok b := ok.env.serEcho _
  obtain ⟨ws, hw1, hw2, hw3⟩ := sendAll_run ok.env (s := s') (rng := rng') (i := 0) (a := s'.makeAccum)
    (ds := s'.destinations.elems) (BSet.elems_nodup _) (by intro d _; simp [Session.makeAccum, Accum.new]) (by
      intro d hd rng
      rw [hn.round]
      exact ⟨_, rfl⟩)
  have hdest : s'.destinations = sc.peers k i := by simp [Session.destinations, hcomm, CommInfo.regular]
  rw [hdest] at hw1
  have hacc : sc.AccInv L e i (sc.nxt t i)
      { (Accum.new (sc.peers k i) : Accum P) with
        artifacts := List.foldl (fun m w => m.insert w.1.destination w.2) BMap.empty ws } :=
    hxA' ▸ AccInv.fresh (fun k' c' hk' _ => by rw [hq'] at hk'; simp at hk')
  obtain ⟨hkept, hmem⟩ := kept ok ha
  obtain ⟨a', g1, g2, g3, g4⟩ := applies ok.env.serMeta coop hL hi hsess hkept.nodup hkept.good hacc (by
    intro vm _
    simp [Accum.new])
  refine ⟨s', a', ws.map Prod.fst, hfin, ?_, hsess, g2, by rw [g3]; rfl, ?_, ?_, ?_⟩
  · unfold startRound
    rw [hw3]
    have hmk : s'.makeAccum = (Accum.new (sc.peers k i) : Accum P) := by
      simp [Session.makeAccum, hcomm, CommInfo.regular]
    rw [hmk]
    simp only
    have : (Accum.new (sc.peers k i) : Accum P).artifacts = BMap.empty := rfl
    rw [this, g1]
  · intro x
    rw [g4, ← hmem]
    simp [Accum.new]
  · rw [List.map_map, hdA', ← hw1]
    rfl
  · intro m hm
    obtain ⟨w, hw, rfl⟩ := List.mem_map.1 hm
    have hmade := hw2 w hw
    have hmd : (sc.peers k i).contains w.1.destination = true := by
      rw [← BSet.mem_elems, ← hw1]
      exact List.mem_map.2 ⟨w, hw, rfl⟩
    have hnem : (sc.peers k i).isEmpty = false := BMap.isEmpty_eq_false.2 ⟨_, hmd⟩
    refine ⟨rfl, ⟨?_, ?_, ?_⟩, fun k' hk' => by rw [hq'] at hk'; simp at hk', ?_⟩
    · obtain ⟨r1, h1⟩ := hmade.signed
      have := signed_valid ok.sign ok.srt h1
      rwa [hn.signer, hn.sessionId, hs.signer, hs.sid, ok.keys i hi, hst] at this
    · obtain ⟨r1, h1⟩ := hn.echo
      rw [hmade.echo]
      have := signed_valid ok.sign ok.srt h1
      rwa [hs.signer, hs.sid, ok.keys i hi, hst] at this
    · obtain ⟨r1, h1⟩ := hn.normal
      rw [hmade.normal]
      have := signed_valid ok.sign ok.srt h1
      rwa [hs.signer, hs.sid, ok.keys i hi, hst] at this
    · intro k' hk'
      rw [hq'] at hk'
      simp only [Prod.mk.injEq, and_true] at hk'
      subst hk'
      refine ⟨?_, ?_, er.pack, ?_, ?_, ?_⟩
      · rw [hmade.echo]
        obtain ⟨r1, h1⟩ := hn.echoPart
        rw [hcomm] at h1
        simp only [CommInfo.regular, hnem, SRound.makeEcho, Bool.false_eq_true, if_false, Except.ok.injEq] at h1
        rw [← h1]
        rfl
      · obtain ⟨r1, h1⟩ := hmade.direct
        rw [hn.round] at h1
        simp only [SRound.makeDirect, Except.ok.injEq, Prod.mk.injEq] at h1
        rw [← h1.1]
        rfl
      · rw [hmade.normal, decodes_iff]
        obtain ⟨r1, h1⟩ := hn.normalPart
        rw [hcomm] at h1
        simp only [CommInfo.regular, hnem, SRound.makeNormal, Bool.false_eq_true, if_false] at h1
        obtain ⟨b, hb⟩ := hpay
        have hv : er.echoBroadcasts.contains er.verifier = true := by simp [er]
        simp only [EchoRd.makeNormal, hv, if_true, hb, Except.ok.injEq] at h1
        rw [← h1]
        simp only [Evidence.deserializePack]
        exact C32_echo_message_round_trip sp ok.ert _ _ hb
      · intro x hx
        obtain ⟨cx, h1, h2⟩ := hb1 x (Or.inr hx)
        refine ⟨cx, h1, ?_⟩
        rw [pack_get]
        have hxi := (others_contains.1 (coop.pattern.expects k i x hkn hi hx)).1
        exact ⟨by simpa [er, hme] using hxi, _, h2, rfl⟩
      · intro x h hh
        rw [pack_get] at hh
        obtain ⟨h1, p, h2, -⟩ := hh
        exact (hb2 x p h2).resolve_left (by simpa [er, hme] using h1)

/-- The position after one that is not followed by an echo round. -/
theorem after {t : Nat} {i : sp.Id} (h : (spot (sc.nxt t i)).2 = false) : spot (sc.nxt t i) = ((spot t).1 + 1, false) := by
  cases hq : spot t with
  | mk k b =>
    cases b with
    | false =>
      simp only [nxt, hq] at h ⊢
      split at h
      · rw [(spot_echo (k := k)).2 rfl] at h; simp at h
      · rename_i hr
        rw [if_neg hr]
        exact spot_main.2 (by omega)
    | true =>
      simp only [nxt, hq]
      exact spot_main.2 (by omega)

/-- What `finalize` is called with. -/
theorem finalize_args (ok : sc.Ok) {L : Ledger P} (hL : sc.LedgerOk L) {e : sp.Id → Nat} {i : sp.Id}
    {t : Nat} {s : Session P} {a : Accum P} (hs : sc.SessInv L i t s)
    (ha : sc.AccInv L e i t a) (hall : ∀ x, a.payloads.contains x = (sc.xAt t i).contains x) :
    ∃ c ps, (L i)[(spot t).1]? = some c ∧ PayloadsOf L.history i (spot t).1 ps ∧
      ∀ rng, s.round.finalize rng a.payloads a.artifacts = P.finalize c.rd rng ps (c.directs.mapVal (fun _ x => x.2)) := by
  cases hq : spot t with
  | mk k b =>
    cases b with
    | false =>
      obtain ⟨c, hc, hr, -⟩ := hs.round.main k hq
      obtain ⟨ps, h1, h2⟩ := payloads_of hL hq hc ha hall
      refine ⟨c, ps, hc, h2, ?_⟩
      intro rng
      rw [hr]
      simp only [SRound.finalize, SRound.finalizeMain, h1, ha.artifacts k c hq hc]
    | true =>
      obtain ⟨c, er, hc, hr, hm, -, -, -, -, -, -, ⟨ps, h1, h2⟩, h3⟩ := hs.round.echo k hq
      refine ⟨c, ps, hc, h2, ?_⟩
      intro rng
      rw [hr]
      simp only [SRound.finalize, SRound.finalizeMain, h1, h3, hm]

/-- Going to the next round. -/
theorem enterNext (ok : sc.Ok) {L : Ledger P} (hL : sc.LedgerOk L) {e : sp.Id → Nat} {i : sp.Id}
    (hi : sc.g.parties.contains i = true) {t : Nat} (hq : (spot (sc.nxt t i)).2 = false) (hk : (spot (sc.nxt t i)).1 < sc.n)
    {s : Session P} {a : Accum P} (hs : sc.SessInv L i t s) (ha : sc.AccInv L e i t a)
    (hall : ∀ x, a.payloads.contains x = (sc.xAt t i).contains x) (rng rng' : sp.Rng) :
    ∃ s' a' c out, s.finalizeRound rng a = .ok (.anotherRound s' (Accum.filterMessages a.cached (sc.idAt (sc.nxt t i)))) ∧
      startRound s' rng' (Accum.filterMessages a.cached (sc.idAt (sc.nxt t i))) = .ok (a', out) ∧
      sc.LedgerOk (Function.update L i (L i ++ [c])) ∧ sc.SessInv (Function.update L i (L i ++ [c])) i (sc.nxt t i) s' ∧
      sc.AccInv (Function.update L i (L i ++ [c])) e i (sc.nxt t i) a' ∧ a'.cached = BMap.empty ∧
      (∀ x, a'.payloads.contains x = true ↔ IsCached a x (sc.idAt (sc.nxt t i))) ∧
      out.map (fun m => m.destination) = (sc.dAt (sc.nxt t i) i).elems ∧
      ∀ m ∈ out, sc.MsgAt (Function.update L i (L i ++ [c])) i m.destination (sc.nxt t i) m := by
  have coop := ok.coop
  have hq1 := after hq
  have hk' : (spot t).1 + 1 < sc.n := by rw [hq1] at hk; exact hk
  obtain ⟨tr, hu, htr, -⟩ := updates ok hs ha hall
  obtain ⟨c0, ps, hc0, hps, hfin⟩ := finalize_args ok hL hs ha hall
  have hlen : (L.history i).length = (spot t).1 + 1 := by
    have := hs.len
    simpa [Ledger.history] using this
  obtain ⟨o, ho, hif⟩ := coop.finalize L.history i (spot t).1 c0.toCell ps hL.honest hi hlen (Ledger.history_get hc0) hps (sp.fork rng 0)
  rw [if_pos hk'] at hif
  obtain ⟨r, rfl⟩ := hif
  have hent : Entering sc.g L.history i r :=
    Or.inr ⟨sp.fork rng 0, (spot t).1, c0.toCell, ps, hlen, Ledger.history_get hc0, hps, ho⟩
  have hid := coop.id _ _ _ hL.honest hi hent
  rw [hlen] at hid
  have hidt : sc.idAt (sc.nxt t i) = sc.rid ((spot t).1 + 1) := by
    rw [← posId_main (coop.notEcho _ hk')]
    simp only [Scheme.idAt]
    rw [hq1]
  obtain ⟨hkept, hmem⟩ := kept ok ha
  obtain ⟨s', a', c, out, h1, h2, h3, h4, h5, h6, h7, h8, h9⟩ := enterMain ok hL hi hq1 hk' hs.len hent htr hkept (sp.fork rng 1) rng'
  refine ⟨s', a', c, out, ?_, h2, h3, h4, h5, h6, ?_, h8, h9⟩
  · unfold Session.finalizeRound
    have hinfo : s.echoInfo = none := by
      have := hs.echoInfo
      rw [hq] at this
      simpa using this
    simp only [hu, hinfo, Session.finalizeProper, hfin, ho, hid]
    have hch := hs.next hk'
    simp only [hch, Bool.true_eq_false, if_false, hs.sid, hs.signer, h1]
    congr 2
    rw [← hidt]
    rw [List.filter_eq_self]
    intro vm _
    simp [Transcript.isBanned, BMap.contains, htr.provable, htr.unprovable]
  · intro x
    rw [h7, ← hmem]
    simp

/-- Going to the end. -/
theorem finish (ok : sc.Ok) {L : Ledger P} (hL : sc.LedgerOk L) {e : sp.Id → Nat} {i : sp.Id}
    (hi : sc.g.parties.contains i = true) {t : Nat} (hq : (spot (sc.nxt t i)).2 = false) (hk : ¬ (spot (sc.nxt t i)).1 < sc.n)
    {s : Session P} {a : Accum P} (hs : sc.SessInv L i t s) (ha : sc.AccInv L e i t a)
    (hall : ∀ x, a.payloads.contains x = (sc.xAt t i).contains x) (rng : sp.Rng) :
    spot (sc.nxt t i) = (sc.n, false) ∧ ∃ rep v, s.finalizeRound rng a = .ok (.finished rep) ∧ rep.outcome = .result v ∧
      rep.provable.isEmpty = true ∧ rep.unprovable.isEmpty = true ∧ rep.missing.isEmpty = true ∧
      ∃ rng, Finalizes L.history i rng (.result v) := by
  have coop := ok.coop
  have hq1 := after hq
  have hst := hs.stage
  have hk' : ¬ (spot t).1 + 1 < sc.n := by rw [hq1] at hk; exact hk
  obtain ⟨tr, hu, htr, -⟩ := updates ok hs ha hall
  obtain ⟨c0, ps, hc0, hps, hfin⟩ := finalize_args ok hL hs ha hall
  have hlen : (L.history i).length = (spot t).1 + 1 := by
    have := hs.len
    simpa [Ledger.history] using this
  obtain ⟨o, ho, hif⟩ := coop.finalize L.history i (spot t).1 c0.toCell ps hL.honest hi hlen (Ledger.history_get hc0) hps (sp.fork rng 0)
  rw [if_neg hk'] at hif
  obtain ⟨v, rfl⟩ := hif
  refine ⟨by rw [hq1]; congr 1; omega, Report.new (.result v) tr, v, ?_, rfl, ?_, ?_, ?_, sp.fork rng 0, (spot t).1, c0.toCell, ps, hlen,
    Ledger.history_get hc0, hps, ho⟩
  · unfold Session.finalizeRound
    have hinfo : s.echoInfo = none := by
      have := hs.echoInfo
      rw [hq] at this
      simpa using this
    simp only [hu, hinfo, Session.finalizeProper, hfin, ho]
  · exact BMap.isEmpty_iff.2 htr.provable
  · exact BMap.isEmpty_iff.2 htr.unprovable
  · exact BMap.isEmpty_iff_eq.2 htr.missing

/-! ### The invariant of the network -/

/-- Party `i` has received the message of `j` at position `t`; `f` counts the positions the parties have finished. -/
def Recv (sc : Scheme P) (net : Net P) (f : sp.Id → Nat) (i j : sp.Id) (t : Nat) : Prop :=
  t < f i ∨ ∃ s a, net.node i = some (.running s a) ∧
    ((t = f i ∧ a.payloads.contains j = true) ∨ (t = sc.nxt (f i) i ∧ IsCached a j (sc.idAt t)))

/-- A party that has finished has a clean result. -/
def DoneOk (L : Ledger P) (i : sp.Id) (r : Except LErr (Report P)) : Prop :=
  ∃ rep v, r = .ok rep ∧ rep.outcome = .result v ∧ rep.provable.isEmpty = true ∧ rep.unprovable.isEmpty = true ∧
    rep.missing.isEmpty = true ∧ ∃ rng, Finalizes L.history i rng (.result v)

/-- The invariant of the network: `L` are the cells of the parties, `e` counts the positions they have entered and `f` those
they have finished. -/
structure NetInv (sc : Scheme P) (L : Ledger P) (e f : sp.Id → Nat) (net : Net P) : Prop where
  ledger : sc.LedgerOk L
  idle : ∀ i, net.node i = none → e i = 0 ∧ f i = 0 ∧ L i = []
  party : ∀ i st, net.node i = some st → sc.g.parties.contains i = true
  running : ∀ i s a, net.node i = some (.running s a) → e i = f i + 1 ∧ sc.SessInv L i (f i) s ∧ sc.AccInv L e i (f i) a
  done : ∀ i r, net.node i = some (.done r) → e i = f i ∧ f i = 2 * sc.n ∧ DoneOk L i r ∧
    (L i).length = sc.n
  sync : ∀ i j t, sc.g.parties.contains i = true → (sc.xAt t i).contains j = true → t < f i → t < e j
  wire : ∀ p ∈ net.wire, sc.g.parties.contains p.dest = true ∧
    ∃ t, t < e p.src ∧ (sc.xAt t p.dest).contains p.src = true ∧ sc.MsgAt L p.src p.dest t p.message ∧ ¬ sc.Recv net f p.dest p.src t
  nodup : (net.wire.map (fun p => (p.src, p.dest, p.message.direct.metadata.roundId))).Nodup
  sent : ∀ i j t, sc.g.parties.contains i = true → (sc.xAt t i).contains j = true → t < e j → ¬ sc.Recv net f i j t →
    ∃ p ∈ net.wire, p.src = j ∧ p.dest = i ∧ sc.MsgAt L j i t p.message

theorem MsgAt.roundId {L : Ledger P} {j i : sp.Id} {t : Nat} {m : Message sp} (h : sc.MsgAt L j i t m) :
    m.direct.metadata.roundId = sc.idAt t := by
  rw [h.authentic.1.1]

/-- Entered positions are proper ones. -/
theorem NetInv.entered {L : Ledger P} {e f : sp.Id → Nat} {net : Net P} (h : sc.NetInv L e f net) {j : sp.Id} {t : Nat}
    (ht : t < e j) : (spot t).1 < sc.n := by
  cases hn : net.node j with
  | none => have := (h.idle j hn).1; omega
  | some st =>
    cases st with
    | running s a =>
      obtain ⟨h1, h2, -⟩ := h.running j s a hn
      exact lt_of_le_of_lt (spot_mono (by omega)) h2.stage
    | done r =>
      obtain ⟨h1, h2, -⟩ := h.done j r hn
      rw [spot_lt]
      omega

theorem NetInv.ids (ok : sc.Ok) {L : Ledger P} {e f : sp.Id → Nat} {net : Net P} (h : sc.NetInv L e f net) {j : sp.Id}
    {t t' : Nat} (ht : t < e j) (ht' : t' < e j) (hid : sc.idAt t = sc.idAt t') : t = t' :=
  spot_inj (posId_inj ok.coop.ids ok.coop.notEcho (h.entered ht) (h.entered ht') hid)

/-- Nobody has received a message that was not sent. -/
theorem NetInv.recv_sent {L : Ledger P} {e f : sp.Id → Nat} {net : Net P} (h : sc.NetInv L e f net) {i j : sp.Id}
    (hi : sc.g.parties.contains i = true) {t : Nat} (hj : (sc.xAt t i).contains j = true) (hr : sc.Recv net f i j t) :
    t < e j := by
  rcases hr with hr | ⟨s, a, hn, ⟨rfl, hp⟩ | ⟨rfl, hc⟩⟩
  · exact h.sync i j t hi hj hr
  · exact ((h.running i s a hn).2.2.payKeys j hp).2
  · obtain ⟨en, vm, h1, h2⟩ := hc
    exact ((h.running i s a hn).2.2.cached j en _ vm h1 h2).2.2.1

theorem DoneOk.mono {L L' : Ledger P} (hL : L.Ext L') {i : sp.Id} (hi : L' i = L i) {r : Except LErr (Report P)}
    (h : DoneOk L i r) : DoneOk L' i r := by
  obtain ⟨rep, v, h1, h2, h3, h4, h5, rng, k, c, ps, h6, h7, h8, h9⟩ := h
  have hh : L'.history i = L.history i := by simp [Ledger.history, hi]
  exact ⟨rep, v, h1, h2, h3, h4, h5, rng, k, c, ps, by rw [hh]; exact h6, by rw [hh]; exact h7, h8.mono hL, h9⟩

/-- A party enters a position. -/
theorem NetInv.advance (ok : sc.Ok) {L L' : Ledger P} {e f : sp.Id → Nat} {net : Net P} (h : sc.NetInv L e f net) {i : sp.Id}
    (hi : sc.g.parties.contains i = true) (hext : L.Ext L') (hoth : ∀ x, x ≠ i → L' x = L x) (hL' : sc.LedgerOk L')
    {s : Session P} {a : Accum P} {out : List (Message sp)} {q : Nat} (heq : e i ≤ q)
    (hgap : ∀ t, sc.Active t i → t < q → t < e i) (hs : sc.SessInv L' i q s) (ha : sc.AccInv L' e i q a)
    (hahead : ∀ j t, (sc.xAt t i).contains j = true → t < q → t < e j)
    (hrecv : ∀ j t, (sc.xAt t i).contains j = true →
      (sc.Recv net f i j t ↔ (t < q ∨ (t = q ∧ a.payloads.contains j = true))))
    (hcached : a.cached = BMap.empty)
    (hout : out.map (fun m => m.destination) = (sc.dAt q i).elems) (hmsg : ∀ m ∈ out, sc.MsgAt L' i m.destination q m) :
    sc.NetInv L' (Function.update e i (q + 1)) (Function.update f i q) (net.put i (.running s a) out) := by
  have hee : ∀ x, e x ≤ Function.update e i (q + 1) x := by
    intro x
    by_cases hx : x = i
    · subst hx; simp only [Function.update_self]; omega
    · simp [Function.update_of_ne hx]
  have hnode : ∀ x, x ≠ i → (net.put i (.running s a) out).node x = net.node x := by
    intro x hx
    simp [Net.put, Function.update_of_ne hx]
  have hnodei : (net.put i (.running s a) out).node i = some (.running s a) := by simp [Net.put]
  -- reception is unchanged
  have hr : ∀ x j t, sc.g.parties.contains x = true → (sc.xAt t x).contains j = true →
      (sc.Recv (net.put i (.running s a) out) (Function.update f i q) x j t ↔ sc.Recv net f x j t) := by
    intro x j t hx hj
    by_cases hxi : x = i
    · subst hxi
      rw [hrecv j t hj]
      unfold Recv
      rw [Function.update_self]
      constructor
      · rintro (h1 | ⟨s', a', hn, hh⟩)
        · exact Or.inl h1
        · rw [hnodei] at hn
          simp only [Option.some.injEq, RunState.running.injEq] at hn
          obtain ⟨rfl, rfl⟩ := hn
          rcases hh with hh | ⟨-, en, vm, h1, -⟩
          · exact Or.inr hh
          · rw [hcached] at h1
            simp at h1
      · rintro (h1 | h1)
        · exact Or.inl h1
        · exact Or.inr ⟨s, a, hnodei, Or.inl h1⟩
    · unfold Recv
      rw [Function.update_of_ne hxi, hnode x hxi]
  have hdests : ∀ m ∈ out, (sc.dAt q i).contains m.destination = true := by
    intro m hm
    rw [← BSet.mem_elems, ← hout]
    exact List.mem_map_of_mem hm
  have hst : (spot q).1 < sc.n := hs.stage
  have hsym : ∀ {x : sp.Id}, (sc.dAt q i).contains x = true →
      sc.g.parties.contains x = true ∧ (sc.xAt q x).contains i = true := by
    intro x hx
    have h1 := (others_contains.1 (ok.coop.pattern.others_at hst hi (Or.inl hx))).2
    exact ⟨h1, by rw [← ok.coop.pattern.matched_at hst hi h1]; exact hx⟩
  -- nobody has received the new messages
  have hnew : ∀ d, sc.g.parties.contains d = true → (sc.xAt q d).contains i = true → ¬ sc.Recv net f d i q := by
    intro d hd hx hc
    have := h.recv_sent hd hx hc
    omega
  refine ⟨hL', ?_, ?_, ?_, ?_, ?_, ?_, ?_, ?_⟩
  · intro x hx
    by_cases hxi : x = i
    · subst hxi; rw [hnodei] at hx; simp at hx
    · rw [hnode x hxi] at hx
      rw [Function.update_of_ne hxi, Function.update_of_ne hxi, hoth x hxi]
      exact h.idle x hx
  · intro x st hx
    by_cases hxi : x = i
    · subst hxi; exact hi
    · rw [hnode x hxi] at hx
      exact h.party x st hx
  · intro x s' a' hx
    by_cases hxi : x = i
    · subst hxi
      rw [hnodei] at hx
      simp only [Option.some.injEq, RunState.running.injEq] at hx
      obtain ⟨rfl, rfl⟩ := hx
      rw [Function.update_self, Function.update_self]
      exact ⟨rfl, hs, ha.mono (Ledger.Ext.refl _) rfl hee⟩
    · rw [hnode x hxi] at hx
      obtain ⟨h1, h2, h3⟩ := h.running x s' a' hx
      rw [Function.update_of_ne hxi, Function.update_of_ne hxi]
      exact ⟨h1, h2.mono hext (hoth x hxi), h3.mono hext (hoth x hxi) hee⟩
  · intro x r hx
    by_cases hxi : x = i
    · subst hxi
      rw [hnodei] at hx
      simp at hx
    · rw [hnode x hxi] at hx
      obtain ⟨h1, h2, h3, h4⟩ := h.done x r hx
      rw [Function.update_of_ne hxi, Function.update_of_ne hxi, hoth x hxi]
      exact ⟨h1, h2, h3.mono hext (hoth x hxi), h4⟩
  · intro x y t hx hy ht
    by_cases hxi : x = i
    · subst hxi
      rw [Function.update_self] at ht
      exact lt_of_lt_of_le (hahead y t hy ht) (hee y)
    · rw [Function.update_of_ne hxi] at ht
      exact lt_of_lt_of_le (h.sync x y t hx hy ht) (hee y)
  · intro p hp
    simp only [Net.put, List.mem_append, List.mem_map] at hp
    rcases hp with hp | ⟨m, hm, rfl⟩
    · obtain ⟨h1, t, h3, h2, h4, h5⟩ := h.wire p hp
      refine ⟨h1, t, lt_of_lt_of_le h3 (hee _), h2, h4.mono hext, ?_⟩
      rwa [hr _ _ _ h1 h2]
    · obtain ⟨h1, h2⟩ := hsym (hdests m hm)
      refine ⟨h1, q, by simp, h2, hmsg m hm, ?_⟩
      rw [hr _ _ _ h1 h2]
      exact hnew _ h1 h2
  · simp only [Net.put, List.map_append, List.map_map]
    rw [List.nodup_append]
    refine ⟨h.nodup, ?_, ?_⟩
    · refine List.Nodup.of_map (fun z => z.2.1) ?_
      rw [List.map_map]
      have : ((fun z : sp.Id × sp.Id × RoundId => z.2.1) ∘
          ((fun p : Packet sp => (p.src, p.dest, p.message.direct.metadata.roundId)) ∘ fun m => ⟨i, m.destination, m⟩)) =
          fun m : Message sp => m.destination := rfl
      rw [this, hout]
      exact BSet.elems_nodup _
    · intro z hz z' hz' hzz
      subst hzz
      obtain ⟨p, hp, rfl⟩ := List.mem_map.1 hz
      obtain ⟨m, hm, he⟩ := List.mem_map.1 hz'
      simp only [Function.comp, Prod.mk.injEq] at he
      obtain ⟨e1, e2, e3⟩ := he
      obtain ⟨-, t, h3, -, h4, -⟩ := h.wire p hp
      rw [h4.roundId, (hmsg m hm).roundId] at e3
      have := spot_inj (posId_inj ok.coop.ids ok.coop.notEcho hst (h.entered h3) e3)
      rw [← e1] at h3
      omega
  · intro x y t hx hy hlt hnr
    rw [hr _ _ _ hx hy] at hnr
    by_cases hold : t < e y
    · obtain ⟨p, hp, h1, h2, h3⟩ := h.sent x y t hx hy hold hnr
      exact ⟨p, by simp only [Net.put, List.mem_append]; exact Or.inl hp, h1, h2, h3.mono hext⟩
    · by_cases hyi : y = i
      · subst hyi
        rw [Function.update_self] at hlt
        have hdy : (sc.dAt t y).contains x = true := by
          by_cases htq : t = q
          · rw [htq, ok.coop.pattern.matched_at hst hi hx, ← htq]
            exact hy
          · rw [ok.coop.pattern.matched_at (lt_of_le_of_lt (spot_mono (show t ≤ q by omega)) hst) hi hx]
            exact hy
        have ht : t = q := by
          by_contra hc
          exact hold (hgap t (active_of_sends hdy) (by omega))
        subst ht
        have : x ∈ out.map (fun m => m.destination) := by
          rw [hout, BSet.mem_elems]
          exact hdy
        obtain ⟨m, hm, rfl⟩ := List.mem_map.1 this
        refine ⟨⟨y, m.destination, m⟩, ?_, rfl, rfl, hmsg m hm⟩
        simp only [Net.put, List.mem_append, List.mem_map]
        exact Or.inr ⟨m, hm, rfl⟩
      · rw [Function.update_of_ne hyi] at hlt
        omega

/-- A party finishes. -/
theorem NetInv.finishes (ok : sc.Ok) {L : Ledger P} {e f : sp.Id → Nat} {net : Net P} (h : sc.NetInv L e f net) {i : sp.Id}
    {s : Session P} {a : Accum P} (hn : net.node i = some (.running s a)) {r : Except LErr (Report P)}
    (hend : sc.nxt (f i) i = 2 * sc.n) (hr : DoneOk L i r)
    (hall : ∀ x, a.payloads.contains x = (sc.xAt (f i) i).contains x) :
    sc.NetInv L (Function.update e i (2 * sc.n)) (Function.update f i (2 * sc.n)) (net.put i (.done r) []) := by
  have hi := h.party i _ hn
  obtain ⟨h1, h2, h3⟩ := h.running i s a hn
  have hnode : ∀ x, x ≠ i → (net.put i (.done r) []).node x = net.node x := by
    intro x hx
    simp [Net.put, Function.update_of_ne hx]
  have hnodei : (net.put i (.done r) []).node i = some (.done r) := by simp [Net.put]
  have hfl := lt_nxt (sc := sc) (f i) i
  have hee : ∀ x, e x ≤ Function.update e i (2 * sc.n) x := by
    intro x
    by_cases hx : x = i
    · subst hx; simp only [Function.update_self]; omega
    · simp [Function.update_of_ne hx]
  have hlast : ∀ j t, (sc.xAt t i).contains j = true → t < e j → t ≤ f i := by
    intro j t hj ht
    by_contra hc
    have := nxt_le (active_of_expects hj) (Nat.lt_of_not_le hc)
    have h4 := h.entered ht
    rw [spot_lt] at h4
    omega
  have hrecv : ∀ x j t, (sc.xAt t x).contains j = true → t < e j →
      (sc.Recv (net.put i (.done r) []) (Function.update f i (2 * sc.n)) x j t ↔ sc.Recv net f x j t) := by
    intro x j t hj ht
    by_cases hxi : x = i
    · subst hxi
      have hti := hlast j t hj ht
      constructor
      · intro _
        by_cases htf : t < f x
        · exact Or.inl htf
        · have heq : t = f x := by omega
          subst heq
          exact Or.inr ⟨s, a, hn, Or.inl ⟨rfl, by rw [hall]; exact hj⟩⟩
      · intro _
        refine Or.inl ?_
        rw [Function.update_self]
        omega
    · unfold Recv
      rw [Function.update_of_ne hxi, hnode x hxi]
  refine ⟨h.ledger, ?_, ?_, ?_, ?_, ?_, ?_, ?_, ?_⟩
  · intro x hx
    by_cases hxi : x = i
    · subst hxi; rw [hnodei] at hx; simp at hx
    · rw [hnode x hxi] at hx
      rw [Function.update_of_ne hxi, Function.update_of_ne hxi]
      exact h.idle x hx
  · intro x st hx
    by_cases hxi : x = i
    · subst hxi; exact hi
    · rw [hnode x hxi] at hx
      exact h.party x st hx
  · intro x s' a' hx
    by_cases hxi : x = i
    · subst hxi
      rw [hnodei] at hx
      simp at hx
    · rw [hnode x hxi] at hx
      rw [Function.update_of_ne hxi, Function.update_of_ne hxi]
      obtain ⟨g1, g2, g3⟩ := h.running x s' a' hx
      exact ⟨g1, g2, g3.mono (Ledger.Ext.refl _) rfl hee⟩
  · intro x r' hx
    by_cases hxi : x = i
    · subst hxi
      rw [hnodei] at hx
      simp only [Option.some.injEq, RunState.done.injEq] at hx
      subst hx
      rw [Function.update_self, Function.update_self]
      refine ⟨rfl, rfl, hr, ?_⟩
      rw [h2.len]
      have hnx : (spot (sc.nxt (f x) x)).2 = false := by
        rw [hend]
        exact congrArg Prod.snd ((spot_main (k := sc.n)).2 rfl)
      have := after hnx
      rw [hend, (spot_main (k := sc.n)).2 rfl] at this
      simp only [Prod.mk.injEq, and_true] at this
      exact this.symm
    · rw [hnode x hxi] at hx
      rw [Function.update_of_ne hxi, Function.update_of_ne hxi]
      exact h.done x r' hx
  · intro x y t hx hy ht
    refine lt_of_lt_of_le ?_ (hee y)
    by_cases hxi : x = i
    · subst hxi
      rw [Function.update_self] at ht
      by_cases htf : t < f x
      · exact h.sync x y t hx hy htf
      · have heq : t = f x := by
          by_contra hc
          have := nxt_le (active_of_expects hy) (show f x < t by omega)
          omega
        subst heq
        exact (h3.payKeys y (by rw [hall]; exact hy)).2
    · rw [Function.update_of_ne hxi] at ht
      exact h.sync x y t hx hy ht
  · intro p hp
    simp only [Net.put, List.map_nil, List.append_nil] at hp
    obtain ⟨g1, t, g3, g2, g4, g5⟩ := h.wire p hp
    exact ⟨g1, t, lt_of_lt_of_le g3 (hee _), g2, g4, by rwa [hrecv _ _ _ g2 g3]⟩
  · simp only [Net.put, List.map_nil, List.append_nil]
    exact h.nodup
  · intro x y t hx hy hlt hnr
    have hlt' : t < e y := by
      by_cases hyi : y = i
      · subst hyi
        rw [Function.update_self] at hlt
        have hd : (sc.dAt t y).contains x = true := by
          rw [ok.coop.pattern.matched_at (spot_lt.2 hlt) hi hx]
          exact hy
        by_contra hc
        have := nxt_le (active_of_sends hd) (show f y < t by omega)
        omega
      · rwa [Function.update_of_ne hyi] at hlt
    rw [hrecv _ _ _ hy hlt'] at hnr
    simp only [Net.put, List.map_nil, List.append_nil]
    exact h.sent x y t hx hy hlt' hnr

/-- A message in transit is one the party has not received yet, of its position or of the next. -/
theorem NetInv.incoming (ok : sc.Ok) {L : Ledger P} {e f : sp.Id → Nat} {net : Net P} (h : sc.NetInv L e f net) {p : Packet sp}
    {s : Session P} {a : Accum P} (hn : net.node p.dest = some (.running s a)) {t : Nat} (ht : t < e p.src)
    (hsrc : (sc.xAt t p.dest).contains p.src = true) (hnr : ¬ sc.Recv net f p.dest p.src t) :
    EchoWellFormed s ∧ ¬ HasError s a p.src ∧
      ((t = f p.dest ∧ a.payloads.contains p.src = false ∧ a.processing.contains p.src = false) ∨
        (f p.dest < t ∧ t = sc.nxt (f p.dest) p.dest ∧ ¬ IsCached a p.src (sc.idAt t) ∧ sc.idAt t ≠ s.transition.id ∧
          Simultaneous s (sc.idAt t))) := by
  have hd := h.party _ _ hn
  obtain ⟨hef, hs, ha⟩ := h.running _ _ _ hn
  have coop := ok.coop
  have hst0 := h.entered ht
  obtain ⟨hsd, hsp⟩ := others_contains.1 (coop.pattern.others_at hst0 hd (Or.inr hsrc))
  -- the message is for this position or the next
  have hlow : f p.dest ≤ t := by
    by_contra hc
    exact hnr (Or.inl (by omega))
  have hact := active_of_expects hsrc
  have hhigh : t ≤ sc.nxt (f p.dest) p.dest := by
    have h2 : ∀ x, e x ≤ f x + 1 := by
      intro x
      cases hns : net.node x with
      | none => have := (h.idle _ hns).1; omega
      | some st =>
        cases st with
        | running s' a' => have := (h.running _ _ _ hns).1; omega
        | done r => have := (h.done _ _ hns).1; omega
    have hsend : (sc.dAt t p.src).contains p.dest = true := by
      rw [coop.pattern.matched_at hst0 hsp hd]
      exact hsrc
    by_contra hc
    obtain ⟨q, hq1, hq2, hq3⟩ := prev_of hs.active hact (show f p.dest < t by
      have := lt_nxt (sc := sc) (f p.dest) p.dest
      omega)
    have hne : q ≠ f p.dest := by
      rintro rfl
      omega
    have hback := coop.pattern.heard hst0 hsp hsend hq1 hq2 (by omega)
    have h3 := h2 p.src
    have h6 := lt_nxt (sc := sc) q p.dest
    have h4 := h.sync p.src p.dest q hsp hback (by omega)
    have h5 := h2 p.dest
    omega
  have hwf : EchoWellFormed s := by
    intro hsome
    cases hr : s.round with
    | echo er => simp [echo_echoInfo hs.proper hr] at hsome
    | main r =>
      rw [hs.rid]
      cases hq : spot (f p.dest) with
      | mk k b =>
        cases b with
        | false => simp only [Scheme.idAt, posId, hq]
        | true =>
          obtain ⟨c, er, -, h2, -⟩ := hs.round.echo k hq
          rw [hr] at h2
          simp at h2
  have hne : ¬ HasError s a p.src := by
    rintro (⟨x, h1⟩ | ⟨x, h1⟩ | ⟨x, h1⟩ | ⟨x, h1⟩)
    · rw [hs.transcript.provable] at h1; simp at h1
    · rw [hs.transcript.unprovable] at h1; simp at h1
    · rw [ha.provable] at h1; simp at h1
    · rw [ha.unprovable] at h1; simp at h1
  refine ⟨hwf, hne, ?_⟩
  rcases Nat.eq_or_lt_of_le hlow with heq | hlt
  · left
    subst heq
    have hpay : a.payloads.contains p.src = false := by
      by_contra hc
      exact hnr (Or.inr ⟨s, a, hn, Or.inl ⟨rfl, by simpa using hc⟩⟩)
    refine ⟨rfl, hpay, ?_⟩
    by_contra hc
    have := ha.processing p.src (by simpa using hc)
    rw [hpay] at this
    simp at this
  · right
    have heq : t = sc.nxt (f p.dest) p.dest := by
      have := nxt_le hact hlt
      omega
    subst heq
    have hst := h.entered ht
    have hnc : ¬ IsCached a p.src (sc.idAt (sc.nxt (f p.dest) p.dest)) := by
      intro hc
      exact hnr (Or.inr ⟨s, a, hn, Or.inr ⟨rfl, hc⟩⟩)
    have hdiff : sc.idAt (sc.nxt (f p.dest) p.dest) ≠ s.transition.id := by
      intro hc
      rw [hs.rid] at hc
      have := spot_inj (posId_inj ok.coop.ids ok.coop.notEcho hst hs.stage hc)
      omega
    have hsim : Simultaneous s (sc.idAt (sc.nxt (f p.dest) p.dest)) := by
      unfold Simultaneous
      cases hb : (spot (sc.nxt (f p.dest) p.dest)).2 with
      | true =>
        left
        have hes := hs.echoInfo
        rw [hb] at hes
        rw [if_pos hes, hs.rid]
        -- the position is a main round followed by an echo round
        cases hq : spot (f p.dest) with
        | mk k b =>
          cases b with
          | true =>
            have : spot (sc.nxt (f p.dest) p.dest) = (k + 1, false) := by
              rw [spot_main]
              simp only [nxt, hq]
              omega
            rw [this] at hb
            simp at hb
          | false =>
            have hrun : sc.runsEcho k p.dest = true := by
              by_contra hc
              have : spot (sc.nxt (f p.dest) p.dest) = (k + 1, false) := by
                rw [spot_main]
                simp only [nxt, hq, if_neg hc]
                omega
              rw [this] at hb
              simp at hb
            have hq' : spot (sc.nxt (f p.dest) p.dest) = (k, true) := by
              rw [spot_echo]
              simp only [nxt, hq, if_pos hrun]
            have hkn : k < sc.n := by have := hs.stage; rw [hq] at this; exact this
            simp only [Scheme.idAt, hq, hq']
            rw [posId_main (coop.notEcho k hkn)]
            exact posId_echo (coop.notEcho k hkn)
      | false =>
        right; right
        have hq1 := after hb
        rw [hq1] at hst
        have := hs.next hst
        simp only [Scheme.idAt]
        rw [hq1, posId_main (coop.notEcho _ hst)]
        exact this
    exact ⟨hlt, rfl, hnc, hdiff, hsim⟩

/-- A party receives a message. -/
theorem NetInv.receive (ok : sc.Ok) {L : Ledger P} {e f : sp.Id → Nat} {net : Net P} (h : sc.NetInv L e f net) {p : Packet sp}
    {w w' : List (Packet sp)} (hw : net.wire = w ++ p :: w') {s : Session P} {a : Accum P}
    (hn : net.node p.dest = some (.running s a)) :
    ∃ a', deliver s a p.src p.message = .ok a' ∧
      sc.NetInv L e f (Net.put ⟨net.node, w ++ w'⟩ p.dest (.running s a') []) := by
  have hp : p ∈ net.wire := by rw [hw]; simp
  obtain ⟨hd, t, ht, hsrc, hm, hnr⟩ := h.wire p hp
  obtain ⟨hef, hs, ha⟩ := h.running _ _ _ hn
  have coop := ok.coop
  obtain ⟨hwf, hne, hpos⟩ := h.incoming ok hn ht hsrc hnr
  have hau := hm.authentic
  rw [← hs.sid] at hau
  -- the rest of the invariant
  have key : ∀ a', sc.AccInv L e p.dest (f p.dest) a' →
      (∀ j t', sc.Recv (Net.put ⟨net.node, w ++ w'⟩ p.dest (.running s a') []) f p.dest j t' ↔
        (sc.Recv net f p.dest j t' ∨ (j = p.src ∧ t' = t))) →
      sc.NetInv L e f (Net.put ⟨net.node, w ++ w'⟩ p.dest (.running s a') []) := by
    intro a' ha' hre
    have hnode : ∀ x, x ≠ p.dest → (Net.put ⟨net.node, w ++ w'⟩ p.dest (.running s a') []).node x = net.node x := by
      intro x hx
      simp [Net.put, Function.update_of_ne hx]
    have hnodei : (Net.put ⟨net.node, w ++ w'⟩ p.dest (.running s a') []).node p.dest = some (.running s a') := by simp [Net.put]
    have hwire : (Net.put ⟨net.node, w ++ w'⟩ p.dest (.running s a') []).wire = w ++ w' := by simp [Net.put]
    have hre' : ∀ x j t', sc.Recv (Net.put ⟨net.node, w ++ w'⟩ p.dest (.running s a') []) f x j t' ↔
        (sc.Recv net f x j t' ∨ (x = p.dest ∧ j = p.src ∧ t' = t)) := by
      intro x j t'
      by_cases hx : x = p.dest
      · subst hx
        rw [hre]
        simp
      · unfold Recv
        rw [hnode x hx]
        simp [hx]
    have hnd := h.nodup
    rw [hw, List.map_append, List.map_cons] at hnd
    have hnot : (p.src, p.dest, p.message.direct.metadata.roundId) ∉
        (w ++ w').map (fun p => (p.src, p.dest, p.message.direct.metadata.roundId)) := by
      have := List.nodup_middle.1 hnd
      rw [List.nodup_cons, ← List.map_append] at this
      exact this.1
    refine ⟨h.ledger, ?_, ?_, ?_, ?_, h.sync, ?_, ?_, ?_⟩
    · intro x hx
      by_cases hxi : x = p.dest
      · subst hxi; rw [hnodei] at hx; simp at hx
      · rw [hnode x hxi] at hx
        exact h.idle x hx
    · intro x st hx
      by_cases hxi : x = p.dest
      · subst hxi; exact hd
      · rw [hnode x hxi] at hx
        exact h.party x st hx
    · intro x s' a'' hx
      by_cases hxi : x = p.dest
      · subst hxi
        rw [hnodei] at hx
        simp only [Option.some.injEq, RunState.running.injEq] at hx
        obtain ⟨rfl, rfl⟩ := hx
        exact ⟨hef, hs, ha'⟩
      · rw [hnode x hxi] at hx
        exact h.running x s' a'' hx
    · intro x r hx
      by_cases hxi : x = p.dest
      · subst hxi; rw [hnodei] at hx; simp at hx
      · rw [hnode x hxi] at hx
        exact h.done x r hx
    · intro q hq
      rw [hwire] at hq
      have hq' : q ∈ net.wire := by
        rw [hw]
        simp only [List.mem_append, List.mem_cons] at hq ⊢
        rcases hq with hq | hq
        · exact Or.inl hq
        · exact Or.inr (Or.inr hq)
      obtain ⟨g1, t', g3, g2, g4, g5⟩ := h.wire q hq'
      refine ⟨g1, t', g3, g2, g4, ?_⟩
      rw [hre']
      rintro (hc | ⟨c1, c2, c3⟩)
      · exact g5 hc
      · apply hnot
        refine List.mem_map.2 ⟨q, hq, ?_⟩
        rw [g4.roundId, hm.roundId, c1, c2, c3]
    · rw [hwire]
      have := List.nodup_middle.1 hnd
      rw [List.nodup_cons, ← List.map_append] at this
      exact this.2
    · intro x y t' hx hy hlt hnr'
      rw [hre'] at hnr'
      rw [not_or] at hnr'
      obtain ⟨q, hq, g1, g2, g3⟩ := h.sent x y t' hx hy hlt hnr'.1
      refine ⟨q, ?_, g1, g2, g3⟩
      rw [hwire]
      rw [hw] at hq
      simp only [List.mem_append, List.mem_cons] at hq ⊢
      rcases hq with hq | rfl | hq
      · exact Or.inl hq
      · exfalso
        apply hnr'.2
        refine ⟨g2.symm, g1.symm, ?_⟩
        refine h.ids ok (j := y) hlt (by rw [← g1]; exact ht) ?_
        rw [← g3.roundId, hm.roundId]
      · exact Or.inr hq
  rcases hpos with ⟨heq, hpay, hpr⟩ | ⟨hlt, heq, hnc, hdiff, hsim⟩
  · -- a message of this position
    subst heq
    obtain ⟨v, hv, hpv⟩ := receives ok.env.serMeta coop h.ledger hd hsrc hs hm
    have hdel := deliver_accepts ok.env.serMeta hwf (a := a) (x := p.src) (m := p.message) (v := v) (by rw [hs.rid]; exact hau) hne
      hpr hpay (by rw [ha.notSent, hsrc, hpay]; rfl) hv
    refine ⟨_, hdel, key _ ?_ ?_⟩
    · exact (ha.accept h.ledger hsrc ht hm hpv).mark (by simp [Accum.accept])
    · intro j t'
      unfold Recv
      constructor
      · rintro (h1 | ⟨s', a', h1, h2⟩)
        · exact Or.inl (Or.inl h1)
        · simp only [Net.put, Function.update_self, Option.some.injEq, RunState.running.injEq] at h1
          obtain ⟨rfl, rfl⟩ := h1
          rcases h2 with ⟨rfl, h2⟩ | ⟨h2, h3⟩
          · simp only [BMap.contains_insert, Bool.or_eq_true, decide_eq_true_eq] at h2
            rcases h2 with rfl | h2
            · exact Or.inr ⟨rfl, rfl⟩
            · exact Or.inl (Or.inr ⟨s, a, hn, Or.inl ⟨rfl, h2⟩⟩)
          · exact Or.inl (Or.inr ⟨s, a, hn, Or.inr ⟨h2, h3⟩⟩)
      · rintro ((h1 | ⟨s', a', h1, h2⟩) | ⟨rfl, rfl⟩)
        · exact Or.inl h1
        · rw [hn] at h1
          simp only [Option.some.injEq, RunState.running.injEq] at h1
          obtain ⟨rfl, rfl⟩ := h1
          refine Or.inr ⟨s, _, by simp only [Net.put, Function.update_self]; rfl, ?_⟩
          rcases h2 with ⟨h2, h3⟩ | ⟨h2, h3⟩
          · exact Or.inl ⟨h2, by simp [h3]⟩
          · exact Or.inr ⟨h2, h3⟩
        · exact Or.inr ⟨s, _, by simp only [Net.put, Function.update_self]; rfl, Or.inl ⟨rfl, by simp⟩⟩
  · -- a message of the next position
    subst heq
    have hdel := deliver_keeps ok.env.serMeta hwf (a := a) (x := p.src) (m := p.message) hau hdiff hsim hne hnc
    refine ⟨_, hdel, key _ ?_ ?_⟩
    · obtain ⟨h1, h2, h3, h4, h5, h6, h7, h8, h9, h10⟩ := ha
      refine ⟨h1, h2, h3, h4, h5, h6, h7, h8, h9, ?_⟩
      intro x en r vm hx hr
      simp only [BMap.get?_insert] at hx
      split at hx
      · rename_i hxs
        subst hxs
        simp only [Option.some.injEq] at hx
        subst hx
        simp only [BMap.get?_insert] at hr
        split at hr
        · rename_i hrr
          simp only [Option.some.injEq] at hr
          subst hr hrr
          exact ⟨hsrc, rfl, ht, p.message, rfl, hm⟩
        · cases hcg : a.cached.get? p.src with
          | none => simp [hcg] at hr
          | some en' =>
            simp only [hcg, Option.getD_some] at hr
            exact h10 p.src en' r vm hcg hr
      · exact h10 x en r vm hx hr
    · have hca : ∀ j r, IsCached (P := P)
          { a with
            cached := a.cached.insert p.src (((a.cached.get? p.src).getD BMap.empty).insert (sc.idAt (sc.nxt (f p.dest) p.dest)) (verifiedOf p.src p.message)) } j r ↔
          (IsCached a j r ∨ (j = p.src ∧ r = sc.idAt (sc.nxt (f p.dest) p.dest))) := by
        intro j r
        unfold IsCached
        simp only [BMap.get?_insert]
        by_cases hj : j = p.src
        · subst hj
          simp only [if_true, Option.some.injEq, true_and]
          constructor
          · rintro ⟨en, vm, rfl, h2⟩
            simp only [BMap.get?_insert] at h2
            split at h2
            · rename_i hrr
              exact Or.inr hrr
            · cases hcg : a.cached.get? p.src with
              | none => simp [hcg] at h2
              | some en' =>
                simp only [hcg, Option.getD_some] at h2
                exact Or.inl ⟨en', vm, rfl, h2⟩
          · rintro (⟨en, vm, h1, h2⟩ | h1)
            · refine ⟨_, if r = sc.idAt (sc.nxt (f p.dest) p.dest) then verifiedOf p.src p.message else vm, rfl, ?_⟩
              simp only [BMap.get?_insert, h1, Option.getD_some, h2]
              split <;> rfl
            · exact ⟨_, _, rfl, by rw [h1, BMap.get?_insert, if_pos rfl]⟩
        · simp [hj]
      intro j t'
      unfold Recv
      constructor
      · rintro (h1 | ⟨s', a', h1, h2⟩)
        · exact Or.inl (Or.inl h1)
        · simp only [Net.put, Function.update_self, Option.some.injEq, RunState.running.injEq] at h1
          obtain ⟨rfl, rfl⟩ := h1
          rcases h2 with ⟨h2, h3⟩ | ⟨h2, h3⟩
          · exact Or.inl (Or.inr ⟨s, a, hn, Or.inl ⟨h2, h3⟩⟩)
          · rw [hca] at h3
            rcases h3 with h3 | ⟨h3, -⟩
            · exact Or.inl (Or.inr ⟨s, a, hn, Or.inr ⟨h2, h3⟩⟩)
            · exact Or.inr ⟨h3, h2⟩
      · rintro ((h1 | ⟨s', a', h1, h2⟩) | ⟨rfl, rfl⟩)
        · exact Or.inl h1
        · rw [hn] at h1
          simp only [Option.some.injEq, RunState.running.injEq] at h1
          obtain ⟨rfl, rfl⟩ := h1
          refine Or.inr ⟨s, _, by simp only [Net.put, Function.update_self]; rfl, ?_⟩
          rcases h2 with ⟨h2, h3⟩ | ⟨h2, h3⟩
          · exact Or.inl ⟨h2, h3⟩
          · exact Or.inr ⟨h2, (hca _ _).2 (Or.inl h3)⟩
        · exact Or.inr ⟨s, _, by simp only [Net.put, Function.update_self], Or.inr ⟨rfl, (hca _ _).2 (Or.inr ⟨rfl, rfl⟩)⟩⟩

end Scheme

end Manul
