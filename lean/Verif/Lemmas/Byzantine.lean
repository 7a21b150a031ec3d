import Verif.Spec.Byzantine
import Verif.Lemmas.Network

/-! # The network with parties that do not follow the protocol: invariants -/

namespace Manul

variable {sp : SP} {P : Proto sp}

/-- The second history extends the first. -/
def HExt (G G' : History P) : Prop := ∀ i (k : Nat) c, (G i)[k]? = some c → (G' i)[k]? = some c

theorem HExt.refl (G : History P) : HExt G G := fun _ _ _ h => h

theorem HExt.snoc (G : History P) (i : sp.Id) (c : Cell P) : HExt G (Function.update G i (G i ++ [c])) := by
  intro j k d h
  by_cases e : j = i
  · subst e
    rw [Function.update_self]
    have := (List.getElem?_eq_some_iff.1 h).1
    rw [List.getElem?_append_left this]
    exact h
  · rw [Function.update_of_ne e]
    exact h

theorem PayloadsAmong.mono {H : sp.Id → Prop} {G G' : History P} (hG : HExt G G') {i : sp.Id} {k : Nat}
    {ps : BMap sp.Id P.Payload} (h : PayloadsAmong H G i k ps) : PayloadsAmong H G' i k ps := by
  refine ⟨?_, ?_, ?_⟩
  · obtain ⟨c, h1, h2⟩ := h.keys
    exact ⟨c, hG _ _ _ h1, h2⟩
  · intro j v hj hv
    obtain ⟨ci, cj, p, art, h1, h2, h3⟩ := h.honest j v hj hv
    exact ⟨ci, cj, p, art, hG _ _ _ h1, hG _ _ _ h2, h3⟩
  · intro j v hv
    obtain ⟨ci, m, h1, h2⟩ := h.other j v hv
    exact ⟨ci, m, hG _ _ _ h1, h2⟩

/-- The plan, the parties following the protocol, and the echo broadcasts of the others. -/
structure Byz {sp : SP} (P : Proto sp) where
  pl : Plan P
  H : sp.Id → Prop
  bc : sp.Id → Nat → Part .echo

namespace Byz

variable (z : Byz P)

/-- The assumptions. -/
structure Ok : Prop where
  mt : sp.MetaTotal
  sc : sp.SignCorrect
  srt : sp.SigRoundTrip
  ert : sp.EchoRoundTrip
  keys : z.pl.g.KeysMatch
  rob : Robust z.pl z.H

/-- The signed echo broadcast is the one of party `x` in stage `k`. -/
structure EchoOf (G : History P) (k : Nat) (x : sp.Id) (p : SignedPart .echo) : Prop where
  auth : AuthenticPart x z.pl.g.sid (z.pl.rid k) p
  honest : z.H x → ∃ c, (G x)[k]? = some c ∧ p.part = c.echo
  other : ¬ z.H x → p.part = z.bc x k

/-- The party does not equivocate in the message. -/
def Fair (x : sp.Id) (m : Message sp) : Prop :=
  ∀ k, k < z.pl.n → z.pl.echoAt k = true → AuthenticPart x z.pl.g.sid (z.pl.rid k) m.echo → m.echo.part = z.bc x k

/-- The message of `j`, who follows the protocol, to `i` at position `t`. -/
structure MsgAt (G : History P) (j i : sp.Id) (t : Nat) (m : Message sp) : Prop where
  dest : m.destination = i
  authentic : Authentic j z.pl.g.sid (z.pl.idAt t) m.direct m.echo m.normal
  main : ∀ k, z.pl.at' t = (k, false) → ∃ c art, (G j)[k]? = some c ∧ m.echo.part = c.echo ∧
    m.normal.part = c.normal ∧ c.directs.get? i = some (m.direct.part, art)
  echo : ∀ k, z.pl.at' t = (k, true) → m.echo.part.payload = none ∧ m.direct.part.payload = none ∧
    ∃ pack : EchoPack sp, Decodes m.normal.part pack ∧
      (∀ x, z.pl.g.parties.contains x = true → x ≠ j → ∃ p, z.EchoOf G k x p ∧ pack.get? x = some (p.toSignedHash sp)) ∧
      ∀ x h, pack.get? x = some h → z.pl.g.parties.contains x = true ∧ x ≠ j

/-- Nothing in the transcript is held against parties following the protocol. -/
structure TrOk (tr : Transcript sp) : Prop where
  provable : ∀ x, z.H x → tr.provable.get? x = none
  unprovable : ∀ x, z.H x → tr.unprovable.get? x = none
  missing : tr.missing = BMap.empty

/-- The round object party `i` has at position `t`. -/
structure RoundAt (G : History P) (i : sp.Id) (t : Nat) (s : Session P) : Prop where
  main : ∀ k, z.pl.at' t = (k, false) → ∃ c, (G i)[k]? = some c ∧ s.round = .main c.rd ∧
    s.echo.part = c.echo ∧ s.normal.part = c.normal
  echo : ∀ k, z.pl.at' t = (k, true) → ∃ c e, (G i)[k]? = some c ∧ s.round = .echo e ∧ e.main = c.rd ∧
    e.verifier = i ∧ e.info.destinations = z.pl.g.others i ∧ e.info.expecting = z.pl.g.others i ∧
    (∀ x, e.info.expectedEchos.contains x = z.pl.g.parties.contains x) ∧
    (∀ x, z.pl.g.parties.contains x = true → ∃ p, z.EchoOf G k x p ∧ e.echoBroadcasts.get? x = some p) ∧
    (∀ x p, e.echoBroadcasts.get? x = some p → z.pl.g.parties.contains x = true) ∧
    (∃ ps, downcastAll e.payloads = .ok ps ∧ PayloadsAmong z.H G i k ps) ∧
    downcastAll e.artifacts = .ok (c.directs.mapVal (fun _ x => x.2))

/-- The session of a party at position `t`. -/
structure SessInv (G : History P) (i : sp.Id) (t : Nat) (s : Session P) : Prop where
  proper : Proper s
  sid : s.sessionId = z.pl.g.sid
  signer : s.signer = z.pl.g.signer i
  rid : s.transition.id = z.pl.idAt t
  stage : (z.pl.at' t).1 < z.pl.n
  len : (G i).length = (z.pl.at' t).1 + 1
  comm : s.comm = ⟨z.pl.dAt t i, z.pl.xAt t i, .default⟩
  next : (z.pl.at' t).1 + 1 < z.pl.n → s.transition.children.contains (z.pl.rid ((z.pl.at' t).1 + 1)) = true
  echoInfo : s.echoInfo.isSome = (z.pl.at' (t + 1)).2
  round : z.RoundAt G i t s
  transcript : z.TrOk s.transcript

/-- What party `i` at position `t` holds of a party `x` following the protocol; `e` counts the positions entered. -/
structure HonInv (G : History P) (e : sp.Id → Nat) (i : sp.Id) (t : Nat) (x : sp.Id) (l : Loc P) : Prop where
  provable : l.provable = none
  unprovable : l.unprovable = none
  notSent : l.notSent = ((z.pl.xAt t i).contains x && !l.payload.isSome)
  ahead : l.payload.isSome = true → t < e x
  processing : l.processing = true → l.payload.isSome = true
  payVal : ∀ k v, z.pl.at' t = (k, false) → l.payload = some v → ∃ w c cx p art, v = some w ∧ (G i)[k]? = some c ∧
    (G x)[k]? = some cx ∧ cx.directs.get? i = some (p, art) ∧ P.receive c.rd x ⟨cx.echo, cx.normal, p⟩ = .ok w
  cached : ∀ en r vm, l.cached = some en → en.get? r = some vm → (z.pl.xAt (t + 1) i).contains x = true ∧
    r = z.pl.idAt (t + 1) ∧ t + 1 < e x ∧ ∃ m, vm = verifiedOf x m ∧ z.MsgAt G x i (t + 1) m

/-- What party `i` at position `t` holds of a party `x`. -/
structure LocInv (G : History P) (e : sp.Id → Nat) (i : sp.Id) (t : Nat) (x : sp.Id) (l : Loc P) : Prop where
  notSent : l.notSent = true → (z.pl.xAt t i).contains x = true
  payload : l.payload.isSome = true → (z.pl.xAt t i).contains x = true
  apart : l.payload.isSome = true → l.notSent = false
  payVal : ∀ k v, z.pl.at' t = (k, false) → l.payload = some v → ∃ w c m, v = some w ∧ (G i)[k]? = some c ∧
    P.receive c.rd x m = .ok w
  echoPay : ∀ p, l.echo = some p → l.payload.isSome = true
  echo : ∀ k, z.pl.at' t = (k, false) → z.pl.echoAt k = true → l.payload.isSome = true → ∃ p, l.echo = some p ∧ z.EchoOf G k x p
  cached : ∀ en r vm, l.cached = some en → en.get? r = some vm → ∃ m, vm = verifiedOf x m ∧
    Authentic x z.pl.g.sid r m.direct m.echo m.normal ∧ (¬ z.H x → z.Fair x m)
  honest : z.H x → z.HonInv G e i t x l

/-- The accumulator of a party at position `t`. -/
structure AccInv (G : History P) (e : sp.Id → Nat) (i : sp.Id) (t : Nat) (a : Accum P) : Prop where
  expecting : a.expecting = z.pl.xAt t i
  artifacts : ∀ k c, z.pl.at' t = (k, false) → (G i)[k]? = some c →
    downcastAll a.artifacts = .ok (c.directs.mapVal (fun _ x => x.2))
  loc : ∀ x, z.LocInv G e i t x (a.loc x)

/-- What is in the history was made by parties following the protocol. -/
structure HistOk (G : History P) : Prop where
  honest : HonestAmong z.pl.g z.H G
  party : ∀ {x : sp.Id} {k : Nat} {c : Cell P}, (G x)[k]? = some c → z.H x
  stage : ∀ {x : sp.Id} {k : Nat} {c : Cell P}, (G x)[k]? = some c → k < z.pl.n
  sends : ∀ {x : sp.Id} {k : Nat} {c : Cell P}, (G x)[k]? = some c → c.echo.payload.isSome = z.pl.echoAt k
  dests : ∀ {x : sp.Id} {k : Nat} {c : Cell P}, (G x)[k]? = some c → ∀ y, c.directs.contains y = (z.pl.dests k x).contains y
  comm : ∀ {x : sp.Id} {k : Nat} {c : Cell P}, (G x)[k]? = some c → P.comm c.rd = ⟨z.pl.dests k x, z.pl.expects k x, .default⟩

variable {z}

theorem EchoOf.mono {G G' : History P} (hG : HExt G G') {k : Nat} {x : sp.Id} {p : SignedPart .echo} (h : z.EchoOf G k x p) :
    z.EchoOf G' k x p := by
  refine ⟨h.auth, ?_, h.other⟩
  intro hx
  obtain ⟨c, h1, h2⟩ := h.honest hx
  exact ⟨c, hG _ _ _ h1, h2⟩

/-- There is only one echo broadcast. -/
theorem EchoOf.part {G : History P} {k : Nat} {x : sp.Id} {p q : SignedPart .echo} (h : z.EchoOf G k x p) (h' : z.EchoOf G k x q) :
    p.part = q.part := by
  by_cases hx : z.H x
  · obtain ⟨c, h1, h2⟩ := h.honest hx
    obtain ⟨c', h3, h4⟩ := h'.honest hx
    rw [h1] at h3
    simp only [Option.some.injEq] at h3
    rw [h2, h4, h3]
  · rw [h.other hx, h'.other hx]

theorem MsgAt.mono {G G' : History P} (hG : HExt G G') {j i : sp.Id} {t : Nat} {m : Message sp}
    (h : z.MsgAt G j i t m) : z.MsgAt G' j i t m := by
  refine ⟨h.dest, h.authentic, ?_, ?_⟩
  · intro k hk
    obtain ⟨c, art, h1, h2⟩ := h.main k hk
    exact ⟨c, art, hG _ _ _ h1, h2⟩
  · intro k hk
    obtain ⟨h1, h2, pack, h3, h4, h5⟩ := h.echo k hk
    refine ⟨h1, h2, pack, h3, ?_, h5⟩
    intro x hx hne
    obtain ⟨p, hp, hh⟩ := h4 x hx hne
    exact ⟨p, hp.mono hG, hh⟩

theorem RoundAt.mono {G G' : History P} (hG : HExt G G') {i : sp.Id} {t : Nat} {s : Session P}
    (h : z.RoundAt G i t s) : z.RoundAt G' i t s := by
  refine ⟨?_, ?_⟩
  · intro k hk
    obtain ⟨c, h1, h2⟩ := h.main k hk
    exact ⟨c, hG _ _ _ h1, h2⟩
  · intro k hk
    obtain ⟨c, e, h1, h2, h3, h4, h5, h6, h7, h8, h9, ⟨ps, h10, h11⟩, h12⟩ := h.echo k hk
    refine ⟨c, e, hG _ _ _ h1, h2, h3, h4, h5, h6, h7, ?_, h9, ⟨ps, h10, h11.mono hG⟩, h12⟩
    intro x hx
    obtain ⟨p, hc, hb⟩ := h8 x hx
    exact ⟨p, hc.mono hG, hb⟩

theorem SessInv.mono {G G' : History P} (hG : HExt G G') {i : sp.Id} (hi : G' i = G i) {t : Nat} {s : Session P}
    (h : z.SessInv G i t s) : z.SessInv G' i t s := by
  obtain ⟨h1, h2, h3, h4, h5, h6, h7, h8, h9, h10, h11⟩ := h
  exact ⟨h1, h2, h3, h4, h5, by rw [hi]; exact h6, h7, h8, h9, h10.mono hG, h11⟩

theorem HonInv.mono {G G' : History P} (hG : HExt G G') {e e' : sp.Id → Nat} (he : ∀ x, e x ≤ e' x) {i x : sp.Id} {t : Nat}
    {l : Loc P} (h : z.HonInv G e i t x l) : z.HonInv G' e' i t x l := by
  obtain ⟨h1, h2, h3, h4, h5, h6, h7⟩ := h
  refine ⟨h1, h2, h3, fun hp => lt_of_lt_of_le (h4 hp) (he x), h5, ?_, ?_⟩
  · intro k v hk hv
    obtain ⟨w, c, cx, p, art, g1, g2, g3, g4⟩ := h6 k v hk hv
    exact ⟨w, c, cx, p, art, g1, hG _ _ _ g2, hG _ _ _ g3, g4⟩
  · intro en r vm hen hr
    obtain ⟨g1, g2, g3, m, g4, g5⟩ := h7 en r vm hen hr
    exact ⟨g1, g2, lt_of_lt_of_le g3 (he x), m, g4, g5.mono hG⟩

theorem LocInv.mono {G G' : History P} (hG : HExt G G') {e e' : sp.Id → Nat} (he : ∀ x, e x ≤ e' x) {i x : sp.Id} {t : Nat}
    {l : Loc P} (h : z.LocInv G e i t x l) : z.LocInv G' e' i t x l := by
  obtain ⟨h1, h2, h0, h3, h4, h5, h6, h7⟩ := h
  refine ⟨h1, h2, h0, ?_, h4, ?_, h6, fun hx => (h7 hx).mono hG he⟩
  · intro k v hk hv
    obtain ⟨w, c, m, g1, g2, g3⟩ := h3 k v hk hv
    exact ⟨w, c, m, g1, hG _ _ _ g2, g3⟩
  · intro k hk hek hp
    obtain ⟨p, g1, g2⟩ := h5 k hk hek hp
    exact ⟨p, g1, g2.mono hG⟩

theorem AccInv.mono {G G' : History P} (hG : HExt G G') {e e' : sp.Id → Nat} (he : ∀ x, e x ≤ e' x) {i : sp.Id}
    (hi : G' i = G i) {t : Nat} {a : Accum P} (h : z.AccInv G e i t a) : z.AccInv G' e' i t a :=
  ⟨h.expecting, by rw [hi]; exact h.artifacts, fun x => (h.loc x).mono hG he⟩

theorem MsgAt.roundId {G : History P} {j i : sp.Id} {t : Nat} {m : Message sp} (h : z.MsgAt G j i t m) :
    m.direct.metadata.roundId = z.pl.idAt t := by
  rw [h.authentic.1.1]

theorem idAt_main (ok : z.Ok) {t k : Nat} (hq : z.pl.at' t = (k, false)) (hk : k < z.pl.n) : z.pl.idAt t = z.pl.rid k := by
  rw [← posId_main (ok.rob.notEcho k hk)]
  simp only [Plan.idAt, show pos z.pl.echoAt t = (k, false) from hq]

/-! ### Messages -/

/-- Messages of parties following the protocol are accepted. -/
theorem receives (ok : z.Ok) {G : History P} (hG : z.HistOk G) {i x : sp.Id} (hi : z.H i) (hxh : z.H x) {t : Nat}
    (hx : (z.pl.xAt t i).contains x = true) {s : Session P} (hs : z.SessInv G i t s) {m : Message sp}
    (hm : z.MsgAt G x i t m) :
    ∃ v, s.round.receive x (verifiedOf x m).dyn = .ok v ∧
      ∀ k, z.pl.at' t = (k, false) → ∃ w c cx p art, v = some w ∧ (G i)[k]? = some c ∧
        (G x)[k]? = some cx ∧ cx.directs.get? i = some (p, art) ∧ P.receive c.rd x ⟨cx.echo, cx.normal, p⟩ = .ok w := by
  cases hq : z.pl.at' t with
  | mk k b =>
    cases b with
    | false =>
      obtain ⟨c, hc, hr, -⟩ := hs.round.main k hq
      obtain ⟨cx, art, hcx, he, hn, hd⟩ := hm.main k hq
      obtain ⟨v, hv⟩ := ok.rob.receive G i x k c cx m.direct.part art hG.honest hi hxh (by
        simp only [Plan.xAt, show pos z.pl.echoAt t = (k, false) from hq] at hx
        exact hx) hc hcx hd
      refine ⟨some v, ?_, ?_⟩
      · rw [hr]
        simp only [SRound.receive, VerifiedMessage.dyn, verifiedOf, he, hn, hv]
      · intro k' hk'
        simp only [Prod.mk.injEq, and_true] at hk'
        subst hk'
        exact ⟨v, c, cx, _, art, rfl, hc, hcx, hd, hv⟩
    | true =>
      obtain ⟨c, e, hc, hr, -, -, -, -, hee, heb, hep, -, -⟩ := hs.round.echo k hq
      obtain ⟨h1, h2, pack, h3, h4, h5⟩ := hm.echo k hq
      refine ⟨none, ?_, fun k' hk' => by simp at hk'⟩
      have hcomp : e.Complete := by
        intro y hy
        rw [hee] at hy
        obtain ⟨p, -, hy⟩ := heb y hy
        exact ⟨_, hy⟩
      have : e.receive x (verifiedOf x m).dyn = .ok () := by
        rw [C18_table ok.mt e hcomp]
        refine .accepted (pack := pack) h1 h2 h3 ?_ ?_
        · intro y
          rw [hee]
          constructor
          · rintro ⟨h, hh⟩
            exact h5 y h hh
          · rintro ⟨hy, hne⟩
            obtain ⟨p, -, h⟩ := h4 y hy hne
            exact ⟨_, h⟩
        · intro y h hh
          obtain ⟨hy, hne⟩ := h5 y h hh
          obtain ⟨p, hp, hp'⟩ := h4 y hy hne
          obtain ⟨q, hq', hb⟩ := heb y hy
          rw [hh] at hp'
          simp only [Option.some.injEq] at hp'
          subst hp'
          refine ⟨q, hb, hp.auth.2, ?_, ?_⟩
          · show p.metadata = q.metadata
            rw [hp.auth.1, hq'.auth.1]
          · show sp.partHash p.part = sp.partHash q.part
            rw [hp.part hq']
      rw [hr]
      simp only [SRound.receive, this]

/-- What was added of a message of any party. -/
theorem LocInv.added (ok : z.Ok) {G : History P} (hG : z.HistOk G) {e : sp.Id → Nat} {i x : sp.Id} (hi : z.H i) {t : Nat}
    {s : Session P} (hs : z.SessInv G i t s) {m : Message sp} (hau : Authentic x z.pl.g.sid (z.pl.idAt t) m.direct m.echo m.normal)
    {l l' : Loc P} (h : z.LocInv G e i t x l) (hns : l.notSent = true) (hpn : l.payload = none)
    (hadd : Added s.transcript (s.process (verifiedOf x m)) l l')
    (hfair : ¬ z.H x → z.Fair x m) (hhon : z.H x → t < e x ∧ z.MsgAt G x i t m) : z.LocInv G e i t x l' := by
  have hx := h.notSent hns
  have hen : l.echo = none := by
    cases hl : l.echo with
    | none => rfl
    | some p => have := h.echoPay p hl; simp [hpn] at this
  have hres : (s.process (verifiedOf x m)).result = s.round.receive x (verifiedOf x m).dyn := rfl
  have hmes : (s.process (verifiedOf x m)).message = verifiedOf x m := rfl
  have hstage := hs.stage
  cases hadd with
  | @payload v hv =>
    rw [hres] at hv
    -- in stages with an echo broadcast there is one
    have hecho : ∀ k, z.pl.at' t = (k, false) → z.pl.echoAt k = true →
        m.echo.part.isNone = false ∧ z.EchoOf G k x m.echo := by
      intro k hk hek
      obtain ⟨c, hc, hr, -⟩ := hs.round.main k hk
      rw [hr] at hv
      obtain ⟨w, -, hw⟩ := main_receive hv
      have hin := ok.rob.insists G i x k c _ w hG.honest hi hc hek hw
      rw [hk] at hstage
      have hae := hau.2.1
      rw [idAt_main ok hk hstage] at hae
      refine ⟨by simpa [Part.isNone, VerifiedMessage.dyn, verifiedOf] using hin, hae, ?_, ?_⟩
      · intro hxh
        obtain ⟨c', art, h1, h2, -⟩ := (hhon hxh).2.main k hk
        exact ⟨c', h1, h2⟩
      · intro hxh
        exact hfair hxh k hstage hek hae
    refine ⟨by simp, fun _ => hx, fun _ => rfl, ?_, by simp, ?_, h.cached, ?_⟩
    · intro k u hk hu
      simp only [Option.some.injEq] at hu
      subst hu
      obtain ⟨c, hc, hr, -⟩ := hs.round.main k hk
      rw [hr] at hv
      obtain ⟨w, h1, hw⟩ := main_receive hv
      exact ⟨w, c, _, h1, hc, hw⟩
    · intro k hk hek _
      obtain ⟨h1, h2⟩ := hecho k hk hek
      refine ⟨m.echo, ?_, h2⟩
      show Loc.storePart l.echo m.echo = some m.echo
      simp [Loc.storePart, h1]
    · intro hxh
      obtain ⟨hlt, hm⟩ := hhon hxh
      obtain ⟨v', hv', hpv⟩ := receives ok hG hi hxh hx hs hm
      rw [hv] at hv'
      simp only [Except.ok.injEq] at hv'
      subst hv'
      obtain ⟨g1, g2, g3, g4, g5, g6, g7⟩ := h.honest hxh
      refine ⟨g1, g2, by simp, fun _ => hlt, by simp, ?_, g7⟩
      intro k u hk hu
      simp only [Option.some.injEq] at hu
      subst hu
      exact hpv k hk
  | provable h1 h2 =>
    have hno : ¬ z.H x := by
      intro hxh
      obtain ⟨v', hv', -⟩ := receives ok hG hi hxh hx hs (hhon hxh).2
      cases h2 with
      | direct h => rw [hres, hv'] at h; simp at h
      | echoBroadcast h => rw [hres, hv'] at h; simp at h
      | normal h => rw [hres, hv'] at h; simp at h
      | protocol h => rw [hres, hv'] at h; simp at h
      | echo h => rw [hres, hv'] at h; simp at h
    exact ⟨by simp, h.payload, fun _ => rfl, h.payVal, h.echoPay, h.echo, h.cached, fun hxh => absurd hxh hno⟩
  | unprovable h1 =>
    have hno : ¬ z.H x := by
      intro hxh
      obtain ⟨v', hv', -⟩ := receives ok hG hi hxh hx hs (hhon hxh).2
      rw [hres, hv'] at h1
      simp at h1
    exact ⟨by simp, h.payload, fun _ => rfl, h.payVal, h.echoPay, h.echo, h.cached, fun hxh => absurd hxh hno⟩

/-- Marking a message as being processed. -/
theorem LocInv.mark {G : History P} {e : sp.Id → Nat} {i x : sp.Id} {t : Nat} {l : Loc P}
    (h : z.LocInv G e i t x l) (hh : z.H x → l.payload.isSome = true) : z.LocInv G e i t x { l with processing := true } := by
  obtain ⟨h1, h2, h0, h3, h4, h5, h6, h7⟩ := h
  refine ⟨h1, h2, h0, h3, h4, h5, h6, ?_⟩
  intro hx
  obtain ⟨g1, g2, g3, g4, g5, g6, g7⟩ := h7 hx
  exact ⟨g1, g2, g3, g4, fun _ => hh hx, g6, g7⟩

theorem Added.unmark {tr : Transcript sp} {q : Processed P} {l l' : Loc P} {b : Bool} (h : Added tr q { l with processing := b } l') :
    ∃ l'', Added tr q l l'' ∧ l' = { l'' with processing := b } := by
  cases h with
  | payload h1 => exact ⟨_, .payload h1, rfl⟩
  | provable h1 h2 => exact ⟨_, .provable h1 h2, rfl⟩
  | unprovable h1 => exact ⟨_, .unprovable h1, rfl⟩

/-- Receiving a message of any party; parties following the protocol are not refused. -/
theorem LocInv.delivered (ok : z.Ok) {G : History P} (hG : z.HistOk G) {e : sp.Id → Nat} {i x : sp.Id} (hi : z.H i) {t : Nat}
    {s : Session P} (hs : z.SessInv G i t s) {m : Message sp} {l l' : Loc P} (h : z.LocInv G e i t x l)
    (hd : Delivered s x m l l') (hfair : ¬ z.H x → z.Fair x m)
    (hhon : z.H x → l'.unprovable = none ∧
      ∃ u, u < e x ∧ (z.pl.xAt u i).contains x = true ∧ z.MsgAt G x i u m ∧ (u = t ∨ u = t + 1)) :
    z.LocInv G e i t x l' := by
  cases hd with
  | ignored _ => exact h
  | @refused er _ _ =>
    obtain ⟨h1, h2, h0, h3, h4, h5, h6, h7⟩ := h
    refine ⟨h1, h2, h0, h3, h4, h5, h6, ?_⟩
    intro hx
    have := (hhon hx).1
    simp at this
  | processed _ _ _ hau hpn hns hadd =>
    have hrid : s.roundId = z.pl.idAt t := hs.rid
    rw [hs.sid, hrid] at hau
    obtain ⟨l'', ha, rfl⟩ := Added.unmark hadd
    have hone : z.H x → t < e x ∧ z.MsgAt G x i t m := by
      intro hx
      obtain ⟨-, u, h1, -, h2, h3⟩ := hhon hx
      rcases h3 with rfl | rfl
      · exact ⟨h1, h2⟩
      · exfalso
        have hid := h2.roundId
        rw [hau.1.1] at hid
        have hst : (z.pl.at' (t + 1)).1 < z.pl.n := by
          cases hq : z.pl.at' (t + 1) with
          | mk k b =>
            cases b with
            | false =>
              obtain ⟨c, -, hc, -⟩ := h2.main k hq
              exact hG.stage hc
            | true =>
              have : k = (z.pl.at' t).1 := by
                simp only [Plan.at', pos] at hq ⊢
                revert hq
                generalize pos z.pl.echoAt t = q
                obtain ⟨k', b'⟩ := q
                cases b' <;> simp only [nextPos]
                · split
                  · intro hq
                    simp only [Prod.mk.injEq, and_true] at hq
                    exact hq.symm
                  · simp
                · simp
              rw [this]
              exact hs.stage
        have := pos_inj _ (posId_inj ok.rob.ids ok.rob.notEcho hs.stage hst hid)
        omega
    have hl := h.added ok hG hi hs hau hns hpn ha hfair hone
    refine hl.mark ?_
    intro hx
    have h1 := (hl.honest hx).notSent
    have h2 : l''.notSent = false := by cases ha <;> rfl
    rw [h2, h.notSent hns] at h1
    simpa using h1
  | @kept vm _ _ hc hvm hau hne hsim =>
    subst hvm
    rw [hs.sid] at hau
    obtain ⟨h1, h2, h0, h3, h4, h5, h6, h7⟩ := h
    refine ⟨h1, h2, h0, h3, h4, h5, ?_, ?_⟩
    · intro en r vm hen hr
      simp only [Option.some.injEq] at hen
      subst hen
      simp only [BMap.get?_insert] at hr
      split at hr
      · rename_i hrr
        simp only [Option.some.injEq] at hr
        subst hr hrr
        exact ⟨m, rfl, hau, hfair⟩
      · cases hcg : l.cached with
        | none => simp [hcg] at hr
        | some en' =>
          simp only [hcg, Option.getD_some] at hr
          exact h6 en' r vm hcg hr
    · intro hx
      obtain ⟨g1, g2, g3, g4, g5, g6, g7⟩ := h7 hx
      refine ⟨g1, g2, g3, g4, g5, g6, ?_⟩
      intro en r vm hen hr
      simp only [Option.some.injEq] at hen
      subst hen
      simp only [BMap.get?_insert] at hr
      split at hr
      · rename_i hrr
        simp only [Option.some.injEq] at hr
        subst hr hrr
        obtain ⟨-, u, k1, k2, k3, k4⟩ := hhon hx
        have hid : (verifiedOf x m).metadata.roundId = z.pl.idAt u := k3.roundId
        rcases k4 with rfl | rfl
        · exact absurd (hid.trans hs.rid.symm) hne
        · exact ⟨k2, hid, k1, m, rfl, k3⟩
      · cases hcg : l.cached with
        | none => simp [hcg] at hr
        | some en' =>
          simp only [hcg, Option.getD_some] at hr
          exact g7 en' r vm hcg hr

/-- What is kept for the position: messages of it, at most one per party. -/
structure Kept (z : Byz P) (G : History P) (e : sp.Id → Nat) (i : sp.Id) (t : Nat) (cs : List (VerifiedMessage sp)) : Prop where
  good : ∀ vm ∈ cs, ∃ m, vm = verifiedOf vm.sender m ∧
    Authentic vm.sender z.pl.g.sid (z.pl.idAt t) m.direct m.echo m.normal ∧ (¬ z.H vm.sender → z.Fair vm.sender m) ∧
    (z.H vm.sender → t < e vm.sender ∧ z.MsgAt G vm.sender i t m)

theorem Kept.mono {G G' : History P} (hG : HExt G G') {e : sp.Id → Nat} {i : sp.Id} {t : Nat} {cs : List (VerifiedMessage sp)}
    (h : z.Kept G e i t cs) : z.Kept G' e i t cs := by
  refine ⟨?_⟩
  intro vm hvm
  obtain ⟨m, h1, h2, h3, h4⟩ := h.good vm hvm
  exact ⟨m, h1, h2, h3, fun hx => ⟨(h4 hx).1, (h4 hx).2.mono hG⟩⟩

/-- Applying the messages kept for the round. -/
theorem applies (ok : z.Ok) {G : History P} (hG : z.HistOk G) {e : sp.Id → Nat} {i : sp.Id} (hi : z.H i) {t : Nat}
    {s : Session P} (hs : z.SessInv G i t s) {cs : List (VerifiedMessage sp)} (hcs : z.Kept G e i t cs)
    {a a' : Accum P} (ha : z.AccInv G e i t a) (hf : foldE (applyVerified s) a cs = .ok a') :
    z.AccInv G e i t a' ∧ a'.cached = a.cached ∧
      (∀ x, a'.payloads.contains x = true → a.payloads.contains x = true ∨ ∃ vm ∈ cs, vm.sender = x) ∧
      (∀ x, a.payloads.contains x = true → a'.payloads.contains x = true) ∧
      ∀ vm ∈ cs, z.H vm.sender → a'.payloads.contains vm.sender = true := by
  induction cs generalizing a with
  | nil =>
    simp only [foldE, Except.ok.injEq] at hf
    subst hf
    exact ⟨ha, rfl, fun x hx => Or.inl hx, fun x hx => hx, by simp⟩
  | cons vm cs ih =>
    simp only [foldE] at hf
    cases hap : applyVerified s a vm with
    | error er => simp [hap] at hf
    | ok a1 =>
      simp only [hap] at hf
      obtain ⟨m, h1, h2, h3, h4⟩ := hcs.good vm (List.mem_cons_self ..)
      have hloc := hap
      unfold applyVerified Session.addProcessed at hloc
      rw [addProcessed_loc] at hloc
      have hsender : (s.process vm).message.sender = vm.sender := rfl
      rw [hsender] at hloc
      cases hl : Loc.add s.transcript (s.process vm) (a.loc vm.sender) with
      | error er => rw [hl] at hloc; simp [liftLoc] at hloc
      | ok l' =>
        rw [hl] at hloc
        simp only [liftLoc, Except.ok.injEq] at hloc
        obtain ⟨k1, k2, k3⟩ := add_ok hl
        have k3' : Added s.transcript (s.process (verifiedOf vm.sender m)) (a.loc vm.sender) l' := by rw [← h1]; exact k3
        have hl' := (ha.loc vm.sender).added ok hG hi hs h2 k2 k1 k3' h3 h4
        have ha1 : z.AccInv G e i t a1 := by
          subst hloc
          refine ⟨ha.expecting, ?_, ?_⟩
          · intro k c hk hc
            have : (a.setLoc vm.sender l').artifacts = a.artifacts := applyVerified_artifacts hap
            rw [this]
            exact ha.artifacts k c hk hc
          · intro x
            by_cases hx : x = vm.sender
            · subst hx; rw [Accum.loc_setLoc_same]; exact hl'
            · rw [Accum.loc_setLoc_other _ hx]; exact ha.loc x
        have hcached : a1.cached = a.cached := by
          apply BMap.ext
          intro x
          have : (a1.loc x).cached = (a.loc x).cached := by
            subst hloc
            by_cases hx : x = vm.sender
            · subst hx; rw [Accum.loc_setLoc_same]; cases k3 <;> rfl
            · rw [Accum.loc_setLoc_other _ hx]
          exact this
        have hpay : ∀ x, a1.payloads.contains x = true → a.payloads.contains x = true ∨ x = vm.sender := by
          intro x hx
          by_cases hxs : x = vm.sender
          · exact Or.inr hxs
          · left
            have : (a1.loc x).payload = (a.loc x).payload := by
              subst hloc
              rw [Accum.loc_setLoc_other _ hxs]
            rw [contains_isSome] at hx ⊢
            have hh : a1.payloads.get? x = a.payloads.get? x := this
            rwa [hh] at hx
        obtain ⟨g1, g2, g3, g4, g5⟩ := ih ⟨fun w hw => hcs.good w (List.mem_cons_of_mem _ hw)⟩ ha1 hf
        refine ⟨g1, g2.trans hcached, ?_, ?_, ?_⟩
        · intro x hx
          rcases g3 x hx with h5 | ⟨w, hw, rfl⟩
          · rcases hpay x h5 with h6 | rfl
            · exact Or.inl h6
            · exact Or.inr ⟨vm, List.mem_cons_self .., rfl⟩
          · exact Or.inr ⟨w, List.mem_cons_of_mem _ hw, rfl⟩
        · intro x hx
          apply g4
          rw [contains_isSome] at hx ⊢
          by_cases hxs : x = vm.sender
          · subst hxs
            have : a.payloads.get? vm.sender = none := k1
            rw [this] at hx
            simp at hx
          · have : (a1.loc x).payload = (a.loc x).payload := by
              subst hloc
              rw [Accum.loc_setLoc_other _ hxs]
            have hh : a1.payloads.get? x = a.payloads.get? x := this
            rw [hh]
            exact hx
        · intro w hw hwh
          rcases List.mem_cons.1 hw with rfl | hw
          · apply g4
            have hns : l'.notSent = false := by cases k3 <;> rfl
            have := (hl'.honest hwh).notSent
            rw [hns, (ha.loc w.sender).notSent k2] at this
            have hp : (a1.loc w.sender).payload.isSome = true := by
              subst hloc
              rw [Accum.loc_setLoc_same]
              simpa using this
            rw [contains_isSome]
            exact hp
          · exact g5 w hw hwh

/-- What was sent. -/
theorem sendAll_inv {s : Session P} {rng : sp.Rng} {i : Nat} {a a' : Accum P} {ds : List sp.Id} {out : List (Message sp)}
    (h : sendAll s rng i a ds = .ok (a', out)) :
    ∃ ws : List (Message sp × Option P.Artifact), ws.map (fun w => w.1.destination) = ds ∧
      (∀ w ∈ ws, Made s w.1.destination w.1 ⟨w.1.destination, w.2⟩) ∧
      a' = { a with artifacts := ws.foldl (fun m w => m.insert w.1.destination w.2) a.artifacts } ∧ out = ws.map Prod.fst := by
  induction ds generalizing i a a' out with
  | nil =>
    simp only [sendAll, Except.ok.injEq, Prod.mk.injEq] at h
    obtain ⟨rfl, rfl⟩ := h
    exact ⟨[], rfl, by simp, rfl, rfl⟩
  | cons d ds ih =>
    simp only [sendAll] at h
    cases hm : s.makeMessage (sp.fork rng i) d with
    | error e => simp [hm] at h
    | ok r =>
      obtain ⟨m, art⟩ := r
      simp only [hm] at h
      have hmade := makeMessage_ok hm
      cases ha : a.addArtifact art with
      | error e => simp [ha] at h
      | ok a1 =>
        simp only [ha] at h
        cases hs : sendAll s rng (i + 1) a1 ds with
        | error e => simp [hs] at h
        | ok r =>
          obtain ⟨a2, ms⟩ := r
          simp only [hs, Except.ok.injEq, Prod.mk.injEq] at h
          obtain ⟨rfl, rfl⟩ := h
          obtain ⟨ws, h1, h2, h3, h4⟩ := ih hs
          have ha1 : a1 = { a with artifacts := a.artifacts.insert d art.artifact } := by
            unfold Accum.addArtifact at ha
            split at ha
            · simp at ha
            · simp only [Except.ok.injEq] at ha
              rw [← ha, hmade.artifact]
          refine ⟨(m, art.artifact) :: ws, by simp [h1, hmade.destination], ?_, ?_, by simp [h4]⟩
          · intro w hw
            rcases List.mem_cons.1 hw with rfl | hw
            · obtain ⟨ad, aa⟩ := art
              have hd := hmade.destination
              have hx := hmade.artifact
              simp only at hx
              subst hd
              subst hx
              exact hmade
            · exact h2 w hw
          · rw [h3, ha1, List.foldl_cons, hmade.destination]

theorem LocInv.fresh {G : History P} {e : sp.Id → Nat} {i : sp.Id} {t : Nat} {as : BMap sp.Id (Option P.Artifact)} (x : sp.Id) :
    z.LocInv G e i t x (Accum.loc { (Accum.new (z.pl.xAt t i) : Accum P) with artifacts := as } x) := by
  refine ⟨?_, ?_, ?_, ?_, ?_, ?_, ?_, fun _ => ⟨?_, ?_, ?_, ?_, ?_, ?_, ?_⟩⟩ <;> simp [Accum.new, Accum.loc]

/-- A round of the protocol was entered. -/
theorem enterMain (ok : z.Ok) {G : History P} (hG : z.HistOk G) {e : sp.Id → Nat} {i : sp.Id}
    (hi : z.H i) {t k : Nat} (hq : z.pl.at' t = (k, false)) (hlen : (G i).length = k)
    {r : P.Rd} (hr : EnteringAmong z.pl.g z.H G i r) {tr : Transcript sp} (htr : z.TrOk tr) {cs : List (VerifiedMessage sp)}
    (hcs : z.Kept G e i t cs) {s : Session P} (hn : NewSession z.pl.g.sid (z.pl.g.signer i) (.main r) tr s) {rng : sp.Rng}
    {a : Accum P} {out : List (Message sp)} (hst : startRound s rng cs = .ok (a, out)) :
    ∃ c, z.HistOk (Function.update G i (G i ++ [c])) ∧
      z.SessInv (Function.update G i (G i ++ [c])) i t s ∧ z.AccInv (Function.update G i (G i ++ [c])) e i t a ∧
      a.cached = BMap.empty ∧ (∀ x, a.payloads.contains x = true → ∃ vm ∈ cs, vm.sender = x) ∧
      (∀ vm ∈ cs, z.H vm.sender → a.payloads.contains vm.sender = true) ∧
      out.map (fun m => m.destination) = (z.pl.dAt t i).elems ∧
      ∀ m ∈ out, z.MsgAt (Function.update G i (G i ++ [c])) i m.destination t m := by
  have rob := ok.rob
  have hip := rob.members i hi
  have hid := rob.id _ _ _ hG.honest hi hr
  have hcomm := rob.comm _ _ _ hG.honest hi hr
  have hch := rob.child _ _ _ hG.honest hi hr
  have hme := rob.makeEcho _ _ _ hG.honest hi hr
  have hk := rob.bound _ _ _ hG.honest hi hr
  rw [hlen] at hid hch hme hcomm hk
  have hdA : z.pl.dAt t i = z.pl.dests k i := by simp only [Plan.dAt, show pos z.pl.echoAt t = (k, false) from hq]
  have hxA : z.pl.xAt t i = z.pl.expects k i := by simp only [Plan.xAt, show pos z.pl.echoAt t = (k, false) from hq]
  have hp := hn.proper
  obtain ⟨htrans, hcm⟩ := roundId_main hp hn.round
  have hcm' : s.comm = ⟨z.pl.dests k i, z.pl.expects k i, .default⟩ := by rw [hcm, hcomm]
  have hidk := idAt_main ok hq hk
  have hsid : s.transition.id = z.pl.idAt t := by rw [htrans, hid, hidk]
  -- the broadcasts
  have hpart : (((z.pl.dests k i).isEmpty = true → s.echo.part = Part.none ∧ s.normal.part = Part.none) ∧
      ((z.pl.dests k i).isEmpty = false → ∃ rng, P.makeEcho r rng = .ok s.echo.part) ∧
      ((z.pl.dests k i).isEmpty = false → ∃ rng, P.makeNormal r rng = .ok s.normal.part)) := by
    obtain ⟨r1, h1⟩ := hn.echoPart
    obtain ⟨r2, h2⟩ := hn.normalPart
    rw [hcm'] at h1 h2
    simp only [SRound.makeEcho, SRound.makeNormal] at h1 h2
    refine ⟨?_, ?_, ?_⟩
    · intro h
      simp only [h, if_true, Except.ok.injEq] at h1 h2
      exact ⟨h1.symm, h2.symm⟩
    · intro h
      simp only [h, Bool.false_eq_true, if_false] at h1
      exact ⟨_, h1⟩
    · intro h
      simp only [h, Bool.false_eq_true, if_false] at h2
      exact ⟨_, h2⟩
  have hsome : s.echo.part.payload.isSome = z.pl.echoAt k := by
    cases hem : (z.pl.dests k i).isEmpty with
    | true =>
      rw [(hpart.1 hem).1]
      cases hek : z.pl.echoAt k with
      | false => rfl
      | true =>
        have := rob.company k i hk hek hi
        rw [← rob.pattern.echoDests k i hk hek hip, hem] at this
        simp at this
    | false =>
      obtain ⟨r1, h1⟩ := hpart.2.1 hem
      exact hme hem r1 _ h1
  -- the direct messages
  unfold startRound at hst
  cases hsend : sendAll s rng 0 s.makeAccum s.destinations.elems with
  | error er => simp [hsend] at hst
  | ok ro =>
  obtain ⟨a0, out0⟩ := ro
  simp only [hsend] at hst
  cases hfold : foldE (applyVerified s) a0 cs with
  | error er => simp [hfold] at hst
  | ok a1 =>
  simp only [hfold, Except.ok.injEq, Prod.mk.injEq] at hst
  obtain ⟨rfl, rfl⟩ := hst
  obtain ⟨ws, hw1, hw2, hw3, hw4⟩ := sendAll_inv hsend
  have hdest : s.destinations = z.pl.dests k i := by simp [Session.destinations, hcm']
  rw [hdest] at hw1
  obtain ⟨vs, rfl⟩ := exists_somes (l := ws) (by
    intro w hw
    obtain ⟨rr, hd⟩ := (hw2 w hw).direct
    rw [hn.round] at hd
    obtain ⟨v, hv, -⟩ := main_makeDirect hd
    exact ⟨v, hv⟩)
  have hvd : vs.map (fun v => v.1.destination) = (z.pl.dests k i).elems := by
    rw [← hw1, List.map_map]
    rfl
  obtain ⟨D, hD, hDa⟩ := sent_directs (vs := vs) (by rw [hvd]; exact BSet.elems_nodup _)
  have hDc : ∀ y, D.contains y = (z.pl.dests k i).contains y := by
    intro y
    rw [Bool.eq_iff_iff, ← BSet.mem_elems, ← hvd, BMap.contains_iff, List.mem_map]
    constructor
    · rintro ⟨x, hx⟩
      obtain ⟨v, hv, he, -⟩ := (hD _ _).1 hx
      exact ⟨v, hv, he⟩
    · rintro ⟨v, hv, he⟩
      exact ⟨_, (hD _ _).2 ⟨v, hv, he, rfl⟩⟩
  let c : Cell P := ⟨r, s.echo.part, s.normal.part, D⟩
  have hcget : (Function.update G i (G i ++ [c]) i)[k]? = some c := by
    rw [Function.update_self, ← hlen]
    simp
  have hext : HExt G (Function.update G i (G i ++ [c])) := HExt.snoc G i c
  have hechoAuth : AuthenticPart i z.pl.g.sid (z.pl.idAt t) s.echo := by
    obtain ⟨r1, h1⟩ := hn.echo
    have := signed_valid ok.sc ok.srt h1
    rwa [ok.keys i hip, hsid] at this
  have hnormAuth : AuthenticPart i z.pl.g.sid (z.pl.idAt t) s.normal := by
    obtain ⟨r1, h1⟩ := hn.normal
    have := signed_valid ok.sc ok.srt h1
    rwa [ok.keys i hip, hsid] at this
  have hG' : z.HistOk (Function.update G i (G i ++ [c])) := by
    have hcase : ∀ {x : sp.Id} {l : Nat} {d : Cell P}, (Function.update G i (G i ++ [c]) x)[l]? = some d →
        (G x)[l]? = some d ∨ (x = i ∧ l = k ∧ d = c) := by
      intro x l d h
      by_cases hx : x = i
      · subst hx
        rw [Function.update_self] at h
        rcases Nat.lt_trichotomy l (G x).length with hl | hl | hl
        · rw [List.getElem?_append_left hl] at h
          exact Or.inl h
        · rw [List.getElem?_append_right (by omega)] at h
          subst hl
          simp only [Nat.sub_self, List.getElem?_cons_zero, Option.some.injEq] at h
          exact Or.inr ⟨rfl, hlen, h.symm⟩
        · rw [List.getElem?_eq_none (by simp; omega)] at h
          simp at h
      · rw [Function.update_of_ne hx] at h
        exact Or.inl h
    refine ⟨?_, ?_, ?_, ?_, ?_, ?_⟩
    · have hcd : (P.comm c.rd).destinations = z.pl.dests k i := by rw [show P.comm c.rd = _ from hcomm]
      refine .enter hG.honest hi hr ⟨by rw [hcd]; exact hpart.1, by rw [hcd]; exact hpart.2.1, by rw [hcd]; exact hpart.2.2,
        by rw [hcd]; exact hDc, ?_⟩
      intro j x hx
      obtain ⟨v, hv, rfl, rfl⟩ := (hD _ _).1 hx
      obtain ⟨rr, hd⟩ := (hw2 (v.1, some v.2) (List.mem_map.2 ⟨v, hv, rfl⟩)).direct
      rw [hn.round] at hd
      obtain ⟨w, h1, h2⟩ := main_makeDirect hd
      simp only [Option.some.injEq] at h1
      rw [← h1] at h2
      exact ⟨rr, h2⟩
    · intro x l d h
      rcases hcase h with h | ⟨rfl, rfl, rfl⟩
      · exact hG.party h
      · exact hi
    · intro x l d h
      rcases hcase h with h | ⟨rfl, rfl, rfl⟩
      · exact hG.stage h
      · exact hk
    · intro x l d h
      rcases hcase h with h | ⟨rfl, rfl, rfl⟩
      · exact hG.sends h
      · exact hsome
    · intro x l d h
      rcases hcase h with h | ⟨rfl, rfl, rfl⟩
      · exact hG.dests h
      · exact hDc
    · intro x l d h
      rcases hcase h with h | ⟨rfl, rfl, rfl⟩
      · exact hG.comm h
      · exact hcomm
  have hsess : z.SessInv (Function.update G i (G i ++ [c])) i t s := by
    refine ⟨hp, hn.sessionId, hn.signer, hsid, by rw [hq]; exact hk, by rw [Function.update_self, hq]; simp [hlen], by rw [hcm', hdA, hxA], ?_, ?_, ?_, ?_⟩
    · intro h1
      rw [hq] at h1 ⊢
      rw [htrans]
      exact hch h1
    · rw [hn.echoInfo, hcm']
      simp only [Session.makeEchoInfo, Plan.at', pos, show pos z.pl.echoAt t = (k, false) from hq, nextPos]
      have : s.echo.part.isNone = !z.pl.echoAt k := by
        rw [← hsome]
        simp [Part.isNone]
      rw [this]
      cases z.pl.echoAt k <;> simp
    · refine ⟨?_, ?_⟩
      · intro k' hk'
        rw [hq] at hk'
        simp only [Prod.mk.injEq, and_true] at hk'
        subst hk'
        exact ⟨c, hcget, hn.round, rfl, rfl⟩
      · intro k' hk'
        rw [hq] at hk'
        simp at hk'
    · rw [hn.transcript]
      exact htr
  have hacc : z.AccInv (Function.update G i (G i ++ [c])) e i t a0 := by
    have hmk : s.makeAccum = (Accum.new (z.pl.xAt t i) : Accum P) := by
      simp [Session.makeAccum, hcm', hxA]
    rw [hmk] at hw3
    subst hw3
    refine ⟨rfl, ?_, fun x => LocInv.fresh x⟩
    intro k' c' hk' hc'
    rw [hq] at hk'
    simp only [Prod.mk.injEq, and_true] at hk'
    subst hk'
    rw [hcget] at hc'
    simp only [Option.some.injEq] at hc'
    subst hc'
    exact hDa
  obtain ⟨g2, g3, g4, -, g5⟩ := applies ok hG' hi hsess (hcs.mono hext) hacc hfold
  refine ⟨c, hG', hsess, g2, ?_, ?_, g5, ?_, ?_⟩
  · rw [g3, hw3]
    rfl
  · intro x hx
    rcases g4 x hx with h | h
    · rw [hw3] at h
      simp [Session.makeAccum, Accum.new] at h
    · exact h
  · rw [hw4, List.map_map, hdA, ← hw1]
    rfl
  · intro m hm
    rw [hw4] at hm
    simp only [List.map_map, List.mem_map] at hm
    obtain ⟨v, hv, rfl⟩ := hm
    have hmade := hw2 (v.1, some v.2) (List.mem_map.2 ⟨v, hv, rfl⟩)
    simp only [Function.comp] at hmade ⊢
    refine ⟨rfl, ⟨?_, ?_, ?_⟩, ?_, ?_⟩
    · obtain ⟨r1, h1⟩ := hmade.signed
      have := signed_valid ok.sc ok.srt h1
      rwa [hn.signer, hn.sessionId, ok.keys i hip, hsid] at this
    · rw [hmade.echo]
      exact hechoAuth
    · rw [hmade.normal]
      exact hnormAuth
    · intro k' hk'
      rw [hq] at hk'
      simp only [Prod.mk.injEq, and_true] at hk'
      subst hk'
      exact ⟨c, v.2, hcget, by rw [hmade.echo], by rw [hmade.normal], (hD _ _).2 ⟨v, hv, rfl, rfl⟩⟩
    · intro k' hk'
      rw [hq] at hk'
      simp at hk'

/-- The transcript after the position. -/
theorem updates {G : History P} {e : sp.Id → Nat} {i : sp.Id} {t : Nat} {s : Session P} {a : Accum P} {tr : Transcript sp}
    (hs : z.SessInv G i t s) (ha : z.AccInv G e i t a) (hns : a.notSent.isEmpty = true)
    (hu : Updated s.transcript s.roundId s.me s.echo a tr) : z.TrOk tr := by
  refine ⟨?_, ?_, ?_⟩
  · intro x hx
    rw [hu.provable, hs.transcript.provable x hx]
    have : a.provable.get? x = none := ((ha.loc x).honest hx).provable
    rw [this]
    rfl
  · intro x hx
    rw [hu.unprovable, hs.transcript.unprovable x hx]
    have : a.unprovable.get? x = none := ((ha.loc x).honest hx).unprovable
    rw [this]
    rfl
  · rw [hu.missing, if_pos hns, hs.transcript.missing]

/-- What was kept for the next position. -/
theorem kept {G : History P} {e : sp.Id → Nat} {i : sp.Id} {t : Nat} {a : Accum P} (ha : z.AccInv G e i t a) :
    z.Kept G e i (t + 1) (Accum.filterMessages a.cached (z.pl.idAt (t + 1))) ∧
      ∀ vm ∈ Accum.filterMessages a.cached (z.pl.idAt (t + 1)), IsCached a vm.sender (z.pl.idAt (t + 1)) := by
  have hmem : ∀ vm ∈ Accum.filterMessages a.cached (z.pl.idAt (t + 1)), ∃ en, a.cached.get? vm.sender = some en ∧
      en.get? (z.pl.idAt (t + 1)) = some vm := by
    intro vm hvm
    obtain ⟨x, en, hx, hr⟩ := mem_filterMessages.1 hvm
    obtain ⟨m, rfl, -⟩ := (ha.loc x).cached en _ vm hx hr
    exact ⟨en, hx, hr⟩
  refine ⟨⟨?_⟩, ?_⟩
  · intro vm hvm
    obtain ⟨en, hx, hr⟩ := hmem vm hvm
    by_cases hh : z.H vm.sender
    · obtain ⟨-, -, h4, m', h5, h6⟩ := ((ha.loc vm.sender).honest hh).cached en _ vm hx hr
      exact ⟨m', h5, h6.authentic, fun h => absurd hh h, fun _ => ⟨h4, h6⟩⟩
    · obtain ⟨m, h1, h2, h3⟩ := (ha.loc vm.sender).cached en _ vm hx hr
      exact ⟨m, h1, h2, h3, fun h => absurd h hh⟩
  · intro vm hvm
    obtain ⟨en, hx, hr⟩ := hmem vm hvm
    exact ⟨en, vm, hx, hr⟩

/-- Everything kept for the next position is used there. -/
theorem kept_mem {G : History P} {e : sp.Id → Nat} {i : sp.Id} {t : Nat} {a : Accum P} (ha : z.AccInv G e i t a) {x : sp.Id}
    {r : RoundId} (h : IsCached a x r) : ∃ vm ∈ Accum.filterMessages a.cached r, vm.sender = x := by
  obtain ⟨en, vm, h1, h2⟩ := h
  obtain ⟨m, rfl, -⟩ := (ha.loc x).cached en r vm h1 h2
  exact ⟨_, mem_filterMessages.2 ⟨x, en, h1, h2⟩, rfl⟩

/-- When a party can finalize it has a payload of everybody it expects one from. -/
theorem AccInv.yes {G : History P} {e : sp.Id → Nat} {i : sp.Id} {t : Nat} {a : Accum P} (ha : z.AccInv G e i t a)
    (hy : a.canFinalize = .yes) (x : sp.Id) : a.payloads.contains x = (z.pl.xAt t i).contains x := by
  have hall : ∀ k, a.expecting.contains k = true → a.payloads.contains k = true := by
    unfold Accum.canFinalize at hy
    split at hy
    · rename_i h
      intro k hk
      exact List.all_eq_true.1 h k (BSet.mem_elems.2 hk)
    · split at hy <;> simp at hy
  rw [Bool.eq_iff_iff]
  constructor
  · intro h
    refine (ha.loc x).payload ?_
    rw [contains_isSome] at h
    exact h
  · intro h
    exact hall x (by rw [ha.expecting]; exact h)

/-- Then nobody is waited for. -/
theorem AccInv.awaited {G : History P} {e : sp.Id → Nat} {i : sp.Id} {t : Nat} {a : Accum P} (ha : z.AccInv G e i t a)
    (hy : a.canFinalize = .yes) : a.notSent.isEmpty = true := by
  rw [BMap.isEmpty_iff_contains]
  intro x
  by_contra hc
  have hc : a.notSent.contains x = true := by simpa using hc
  have h1 := (ha.loc x).notSent hc
  have h2 := ha.yes hy x
  rw [h1, contains_isSome] at h2
  have : a.notSent.contains x = false := (ha.loc x).apart h2
  rw [hc] at this
  simp at this

/-- The payloads of a complete position. -/
theorem payloads_of {G : History P} (hG : z.HistOk G) {e : sp.Id → Nat} {i : sp.Id} {t k : Nat} (hq : z.pl.at' t = (k, false))
    {a : Accum P} {c : Cell P} (hc : (G i)[k]? = some c) (ha : z.AccInv G e i t a)
    (hall : ∀ x, a.payloads.contains x = (z.pl.xAt t i).contains x) :
    ∃ ps, downcastAll a.payloads = .ok ps ∧ PayloadsAmong z.H G i k ps := by
  obtain ⟨ps, h1, h2⟩ := downcastAll_total (m := a.payloads) (by
    intro x v hv
    obtain ⟨w, c, m, rfl, -⟩ := (ha.loc x).payVal k v hq hv
    exact ⟨w, rfl⟩)
  refine ⟨ps, h1, ?_, ?_, ?_⟩
  · refine ⟨c, hc, ?_⟩
    intro j
    rw [hG.comm hc, ← show z.pl.xAt t i = z.pl.expects k i by simp only [Plan.xAt, show pos z.pl.echoAt t = (k, false) from hq],
      ← hall, Bool.eq_iff_iff, BMap.contains_iff, BMap.contains_iff]
    constructor
    · rintro ⟨v, hv⟩
      exact ⟨_, (h2 j v).1 hv⟩
    · rintro ⟨v, hv⟩
      obtain ⟨w, c, m, rfl, -⟩ := (ha.loc j).payVal k v hq hv
      exact ⟨w, (h2 j w).2 hv⟩
  · intro j v hj hv
    obtain ⟨w, c, cx, p, art, h3, h4, h5, h6, h7⟩ := ((ha.loc j).honest hj).payVal k _ hq ((h2 j v).1 hv)
    simp only [Option.some.injEq] at h3
    subst h3
    exact ⟨c, cx, p, art, h4, h5, h6, h7⟩
  · intro j v hv
    obtain ⟨w, c, m, h3, h4, h5⟩ := (ha.loc j).payVal k _ hq ((h2 j v).1 hv)
    simp only [Option.some.injEq] at h3
    subst h3
    exact ⟨c, m, h4, h5⟩

/-- The position after one that is followed by an echo round. -/
theorem before {t : Nat} (h : (z.pl.at' (t + 1)).2 = true) : ∃ k, z.pl.at' t = (k, false) ∧ z.pl.echoAt k = true := by
  cases hq : z.pl.at' t with
  | mk k b =>
    have hq0 : pos z.pl.echoAt t = (k, b) := hq
    cases b with
    | true => simp only [Plan.at', pos, hq0, nextPos] at h; simp at h
    | false =>
      refine ⟨k, rfl, ?_⟩
      simp only [Plan.at', pos, hq0, nextPos] at h
      split at h
      · assumption
      · simp at h

/-- From a round to its echo round. -/
theorem enterEcho (ok : z.Ok) {G : History P} (hG : z.HistOk G) {e : sp.Id → Nat} {i : sp.Id} (hi : z.H i) {t : Nat}
    {s : Session P} {a : Accum P} (hs : z.SessInv G i t s) (ha : z.AccInv G e i t a) (hy : a.canFinalize = .yes)
    {tr : Transcript sp} (hu : Updated s.transcript s.roundId s.me s.echo a tr) {info : EchoInfo sp.Id}
    (hinfo : s.echoInfo = some info) {r : P.Rd} (hr : s.round = .main r) {ebs : BMap sp.Id (SignedPart .echo)}
    (hebs : tr.echos.get? s.roundId = some ebs) {s' : Session P}
    (hn : NewSession s.sessionId s.signer (.echo ⟨s.me, ebs, info, r, a.payloads, a.artifacts⟩) tr s') {rng : sp.Rng}
    {a' : Accum P} {out : List (Message sp)}
    (hst : startRound s' rng (Accum.filterMessages a.cached s'.roundId) = .ok (a', out)) :
    z.SessInv G i (t + 1) s' ∧ z.AccInv G e i (t + 1) a' ∧ a'.cached = BMap.empty ∧
      (∀ x, a'.payloads.contains x = true → IsCached a x (z.pl.idAt (t + 1))) ∧
      (∀ x, z.H x → IsCached a x (z.pl.idAt (t + 1)) → a'.payloads.contains x = true) ∧
      out.map (fun m => m.destination) = (z.pl.dAt (t + 1) i).elems ∧ ∀ m ∈ out, z.MsgAt G i m.destination (t + 1) m := by
  have rob := ok.rob
  have hip := rob.members i hi
  have hall := ha.yes hy
  have hnext : (z.pl.at' (t + 1)).2 = true := by rw [← hs.echoInfo, hinfo]; rfl
  obtain ⟨k, hq, hek⟩ := before hnext
  have hq' : z.pl.at' (t + 1) = (k, true) := by
    simp only [Plan.at', pos, show pos z.pl.echoAt t = (k, false) from hq, nextPos, hek, if_true]
  have hkn : k < z.pl.n := by have := hs.stage; rw [hq] at this; exact this
  have hne := rob.notEcho k hkn
  have hdA : z.pl.dAt t i = z.pl.g.others i := by
    simp only [Plan.dAt, show pos z.pl.echoAt t = (k, false) from hq]; exact rob.pattern.echoDests k i hkn hek hip
  have hxA : z.pl.xAt t i = z.pl.g.others i := by
    simp only [Plan.xAt, show pos z.pl.echoAt t = (k, false) from hq]; exact rob.pattern.echoExpects k i hkn hek hip
  have hdA' : z.pl.dAt (t + 1) i = z.pl.g.others i := by
    simp only [Plan.dAt, show pos z.pl.echoAt (t + 1) = (k, true) from hq']; exact rob.pattern.echoDests k i hkn hek hip
  have hxA' : z.pl.xAt (t + 1) i = z.pl.g.others i := by
    simp only [Plan.xAt, show pos z.pl.echoAt (t + 1) = (k, true) from hq']; exact rob.pattern.echoExpects k i hkn hek hip
  have hidk : s.transition.id = z.pl.rid k := by rw [hs.rid, idAt_main ok hq hkn]
  have hid' : z.pl.idAt (t + 1) = posId z.pl.rid (k, true) := by
    simp only [Plan.idAt, show pos z.pl.echoAt (t + 1) = (k, true) from hq']
  have htr := updates hs ha (ha.awaited hy) hu
  obtain ⟨c, hc, hr', hecp, hnop⟩ := hs.round.main k hq
  rw [hr] at hr'
  simp only [SRound.main.injEq] at hr'
  subst hr'
  obtain ⟨htrans, -⟩ := roundId_main hs.proper hr
  have hme : s.me = i := by rw [hs.proper.me, hs.signer, ok.keys i hip]
  have hnone : s.echo.part.isNone = false := by
    have := hG.sends hc
    rw [hek, ← hecp] at this
    simpa [Part.isNone] using this
  have hinfo' : info = ⟨z.pl.g.others i, z.pl.g.others i, BSet.insert (z.pl.g.others i) i⟩ := by
    have := hs.proper.echoInfo
    rw [hs.comm, hme, hnone, hdA, hxA, hinfo] at this
    simpa [Session.makeEchoInfo] using this
  have hebs' : ebs = a.echos.insert s.me s.echo := by
    rw [hu.echos] at hebs
    simpa using hebs.symm
  subst hinfo' hebs'
  let er : EchoRd P := ⟨s.me, a.echos.insert s.me s.echo, ⟨z.pl.g.others i, z.pl.g.others i, BSet.insert (z.pl.g.others i) i⟩, c.rd,
    a.payloads, a.artifacts⟩
  have htre : (SRound.echo er).transition = .ok
      { id := posId z.pl.rid (k, true), parents := BSet.ofList [(P.transition c.rd).id], siblings := BMap.empty,
        children := (P.transition c.rd).children, mayProduceResult := (P.transition c.rd).mayProduceResult } := by
    simp only [SRound.transition, EchoRd.transition, TransitionInfo.echo]
    have : (P.transition c.rd).id.echo = .ok (posId z.pl.rid (k, true)) := by
      rw [← htrans, hidk]
      exact posId_echo hne
    simp only [er, this]
    rfl
  have hp := hn.proper
  have htre' : Except.ok s'.transition = Except.ok
      { id := posId z.pl.rid (k, true), parents := BSet.ofList [(P.transition c.rd).id], siblings := BMap.empty,
        children := (P.transition c.rd).children, mayProduceResult := (P.transition c.rd).mayProduceResult } :=
    hn.transition.symm.trans htre
  simp only [Except.ok.injEq] at htre'
  have hst' : s'.transition.id = z.pl.idAt (t + 1) := by rw [htre', hid']
  have hcomm : s'.comm = CommInfo.regular (z.pl.g.others i) := by rw [hn.comm]; rfl
  -- the broadcasts held by the echo round
  have hb1 : ∀ x, z.pl.g.parties.contains x = true → ∃ p, z.EchoOf G k x p ∧ er.echoBroadcasts.get? x = some p := by
    intro x hx
    by_cases hxi : x = i
    · subst hxi
      refine ⟨s.echo, ⟨?_, fun _ => ⟨c, hc, hecp⟩, fun h => absurd hi h⟩, ?_⟩
      · obtain ⟨r1, h1⟩ := hs.proper.echo
        have := signed_valid ok.sc ok.srt h1
        rwa [hs.signer, hs.sid, ok.keys x hip, hidk] at this
      · simp [er, hme]
    · obtain ⟨p, h1, h2⟩ := (ha.loc x).echo k hq hek (by
        have := hall x
        rw [hxA, Plan.others_contains.2 ⟨hxi, hx⟩, contains_isSome] at this
        exact this)
      refine ⟨p, h2, ?_⟩
      simp only [er, hme, BMap.get?_insert, hxi, if_false]
      exact h1
  have hb2 : ∀ x p, er.echoBroadcasts.get? x = some p → z.pl.g.parties.contains x = true := by
    intro x p hx
    by_cases hxi : x = i
    · subst hxi; exact hip
    · simp only [er, hme, BMap.get?_insert, hxi, if_false] at hx
      have := (ha.loc x).payload ((ha.loc x).echoPay p hx)
      rw [hxA] at this
      exact (Plan.others_contains.1 this).2
  have hsess : z.SessInv G i (t + 1) s' := by
    refine ⟨hp, by rw [hn.sessionId, hs.sid], by rw [hn.signer, hs.signer], hst', by rw [hq']; exact hkn,
      by rw [hs.len, hq, hq'], by rw [hcomm, hdA', hxA']; rfl, ?_, ?_, ?_, by rw [hn.transcript]; exact htr⟩
    · intro h1
      rw [hq'] at h1 ⊢
      rw [htre']
      simp only
      rw [← htrans]
      have := hs.next
      rw [hq] at this
      exact this h1
    · rw [echo_echoInfo hp hn.round]
      simp only [Plan.at', pos] at hq' ⊢
      rw [show nextPos z.pl.echoAt (pos z.pl.echoAt t) = (k, true) from hq']
      rfl
    · refine ⟨fun k' hk' => by rw [hq'] at hk'; simp at hk', ?_⟩
      intro k' hk'
      rw [hq'] at hk'
      simp only [Prod.mk.injEq, and_true] at hk'
      subst hk'
      refine ⟨c, er, hc, hn.round, rfl, hme, rfl, rfl, ?_, hb1, hb2, payloads_of hG hq hc ha hall, ha.artifacts k c hq hc⟩
      intro x
      simp only [er, BSet.contains_insert, Group.others, BMap.contains_erase]
      by_cases hxi : x = i
      · simp [hxi, hip]
      · simp [hxi]
  -- the messages
  unfold startRound at hst
  cases hsend : sendAll s' rng 0 s'.makeAccum s'.destinations.elems with
  | error er => simp [hsend] at hst
  | ok ro =>
  obtain ⟨a0, out0⟩ := ro
  simp only [hsend] at hst
  cases hfold : foldE (applyVerified s') a0 (Accum.filterMessages a.cached s'.roundId) with
  | error er => simp [hfold] at hst
  | ok a1 =>
  simp only [hfold, Except.ok.injEq, Prod.mk.injEq] at hst
  obtain ⟨rfl, rfl⟩ := hst
  obtain ⟨ws, hw1, hw2, hw3, hw4⟩ := sendAll_inv hsend
  have hdest : s'.destinations = z.pl.g.others i := by simp [Session.destinations, hcomm, CommInfo.regular]
  rw [hdest] at hw1
  have hacc : z.AccInv G e i (t + 1) a0 := by
    have hmk : s'.makeAccum = (Accum.new (z.pl.xAt (t + 1) i) : Accum P) := by
      simp [Session.makeAccum, hcomm, CommInfo.regular, hxA']
    rw [hmk] at hw3
    subst hw3
    exact ⟨rfl, fun k' c' hk' _ => (by rw [hq'] at hk'; simp at hk'), fun x => LocInv.fresh x⟩
  obtain ⟨hkept, hmem⟩ := kept ha
  have hrid : s'.roundId = z.pl.idAt (t + 1) := hst'
  rw [hrid] at hfold
  obtain ⟨g2, g3, g4, -, g5⟩ := applies ok hG hi hsess hkept hacc hfold
  refine ⟨hsess, g2, by rw [g3, hw3]; rfl, ?_, ?_, ?_, ?_⟩
  · intro x hx
    rcases g4 x hx with h | ⟨vm, hvm, rfl⟩
    · rw [hw3] at h
      simp [Session.makeAccum, Accum.new] at h
    · exact hmem vm hvm
  · intro x hx hc
    obtain ⟨vm, hvm, rfl⟩ := kept_mem ha hc
    exact g5 vm hvm hx
  · rw [hw4, List.map_map, hdA', ← hw1]
    rfl
  · intro m hm
    rw [hw4] at hm
    obtain ⟨w, hw, rfl⟩ := List.mem_map.1 hm
    have hmade := hw2 w hw
    have hmd : (z.pl.g.others i).contains w.1.destination = true := by
      rw [← BSet.mem_elems, ← hw1]
      exact List.mem_map.2 ⟨w, hw, rfl⟩
    have hnem : (z.pl.g.others i).isEmpty = false := BMap.isEmpty_eq_false.2 ⟨_, hmd⟩
    refine ⟨rfl, ⟨?_, ?_, ?_⟩, fun k' hk' => by rw [hq'] at hk'; simp at hk', ?_⟩
    · obtain ⟨r1, h1⟩ := hmade.signed
      have := signed_valid ok.sc ok.srt h1
      rwa [hn.signer, hn.sessionId, hs.signer, hs.sid, ok.keys i hip, hst'] at this
    · obtain ⟨r1, h1⟩ := hn.echo
      rw [hmade.echo]
      have := signed_valid ok.sc ok.srt h1
      rwa [hs.signer, hs.sid, ok.keys i hip, hst'] at this
    · obtain ⟨r1, h1⟩ := hn.normal
      rw [hmade.normal]
      have := signed_valid ok.sc ok.srt h1
      rwa [hs.signer, hs.sid, ok.keys i hip, hst'] at this
    · intro k' hk'
      rw [hq'] at hk'
      simp only [Prod.mk.injEq, and_true] at hk'
      subst hk'
      refine ⟨?_, ?_, er.pack, ?_, ?_, ?_⟩
      · rw [hmade.echo]
        obtain ⟨r1, h1⟩ := hn.echoPart
        rw [hcomm] at h1
        simp only [CommInfo.regular, hnem, SRound.makeEcho, Bool.false_eq_true, if_false, Except.ok.injEq] at h1
        rw [← h1]
        rfl
      · obtain ⟨r1, h1⟩ := hmade.direct
        rw [hn.round] at h1
        simp only [SRound.makeDirect, Except.ok.injEq, Prod.mk.injEq] at h1
        rw [← h1.1]
        rfl
      · rw [hmade.normal, decodes_iff]
        obtain ⟨r1, h1⟩ := hn.normalPart
        rw [hcomm] at h1
        simp only [CommInfo.regular, hnem, SRound.makeNormal, Bool.false_eq_true, if_false] at h1
        have hv : er.echoBroadcasts.contains er.verifier = true := by simp [er]
        change er.makeNormal = .ok s'.normal.part at h1
        simp only [EchoRd.makeNormal, hv, if_true] at h1
        split at h1
        · simp at h1
        · rename_i b hb
          simp only [Except.ok.injEq] at h1
          rw [← h1]
          simp only [Evidence.deserializePack]
          exact C32_echo_message_round_trip sp ok.ert _ _ hb
      · intro x hx hxi
        obtain ⟨p, h1, h2⟩ := hb1 x hx
        refine ⟨p, h1, ?_⟩
        rw [pack_get]
        exact ⟨by simpa [er, hme] using hxi, _, h2, rfl⟩
      · intro x h hh
        rw [pack_get] at hh
        obtain ⟨h1, p, h2, -⟩ := hh
        exact ⟨hb2 x p h2, by simpa [er, hme] using h1⟩

/-- What `finalize` is called with. -/
theorem finalize_args {G : History P} (hG : z.HistOk G) {e : sp.Id → Nat} {i : sp.Id}
    {t : Nat} {s : Session P} {a : Accum P} (hs : z.SessInv G i t s)
    (ha : z.AccInv G e i t a) (hall : ∀ x, a.payloads.contains x = (z.pl.xAt t i).contains x) :
    ∃ c ps, (G i)[(z.pl.at' t).1]? = some c ∧ PayloadsAmong z.H G i (z.pl.at' t).1 ps ∧
      ∀ rng, s.round.finalize rng a.payloads a.artifacts = P.finalize c.rd rng ps (c.directs.mapVal (fun _ x => x.2)) := by
  cases hq : z.pl.at' t with
  | mk k b =>
    cases b with
    | false =>
      obtain ⟨c, hc, hr, -⟩ := hs.round.main k hq
      obtain ⟨ps, h1, h2⟩ := payloads_of hG hq hc ha hall
      refine ⟨c, ps, hc, h2, ?_⟩
      intro rng
      rw [hr]
      simp only [SRound.finalize, SRound.finalizeMain, h1, ha.artifacts k c hq hc]
    | true =>
      obtain ⟨c, er, hc, hr, hm, -, -, -, -, -, -, ⟨ps, h1, h2⟩, h3⟩ := hs.round.echo k hq
      refine ⟨c, ps, hc, h2, ?_⟩
      intro rng
      rw [hr]
      simp only [SRound.finalize, SRound.finalizeMain, h1, h3, hm]

/-- A finalized position. -/
theorem finalizes {G : History P} (hG : z.HistOk G) {e : sp.Id → Nat} {i : sp.Id}
    {t : Nat} {s : Session P} {a : Accum P} (hs : z.SessInv G i t s)
    (ha : z.AccInv G e i t a) (hy : a.canFinalize = .yes) {rng : sp.Rng} {o : Outcome P.Rd P.Result}
    (hf : s.round.finalize rng a.payloads a.artifacts = .ok o) : FinalizesAmong z.H G i rng o := by
  obtain ⟨c, ps, h1, h2, h3⟩ := finalize_args hG hs ha (ha.yes hy)
  exact ⟨_, c, ps, hs.len, h1, h2, by rw [← h3]; exact hf⟩

/-- To the next round. -/
theorem enterNext (ok : z.Ok) {G : History P} (hG : z.HistOk G) {e : sp.Id → Nat} {i : sp.Id} (hi : z.H i) {t : Nat}
    {s : Session P} {a : Accum P} (hs : z.SessInv G i t s) (ha : z.AccInv G e i t a) (hy : a.canFinalize = .yes)
    {tr : Transcript sp} (hu : Updated s.transcript s.roundId s.me s.echo a tr) (hinfo : s.echoInfo = none) {r : P.Rd}
    {rng0 : sp.Rng} (hf : s.round.finalize rng0 a.payloads a.artifacts = .ok (.anotherRound r)) {s' : Session P}
    (hn : NewSession s.sessionId s.signer (.main r) tr s') {rng : sp.Rng} {a' : Accum P} {out : List (Message sp)}
    (hst : startRound s' rng ((Accum.filterMessages a.cached (P.transition r).id).filter (fun m => !tr.isBanned m.sender)) =
      .ok (a', out)) :
    ∃ c, z.HistOk (Function.update G i (G i ++ [c])) ∧
      z.SessInv (Function.update G i (G i ++ [c])) i (t + 1) s' ∧ z.AccInv (Function.update G i (G i ++ [c])) e i (t + 1) a' ∧
      a'.cached = BMap.empty ∧ (∀ x, a'.payloads.contains x = true → IsCached a x (z.pl.idAt (t + 1))) ∧
      (∀ x, z.H x → IsCached a x (z.pl.idAt (t + 1)) → a'.payloads.contains x = true) ∧
      out.map (fun m => m.destination) = (z.pl.dAt (t + 1) i).elems ∧
      ∀ m ∈ out, z.MsgAt (Function.update G i (G i ++ [c])) i m.destination (t + 1) m := by
  have hq : (z.pl.at' (t + 1)).2 = false := by rw [← hs.echoInfo, hinfo]; rfl
  have hq1 := Plan.after hq
  have hent : EnteringAmong z.pl.g z.H G i r := Or.inr ⟨rng0, finalizes hG hs ha hy hf⟩
  have hid := ok.rob.id _ _ _ hG.honest hi hent
  have hk := ok.rob.bound _ _ _ hG.honest hi hent
  rw [hs.len] at hid hk
  have hidt : z.pl.idAt (t + 1) = (P.transition r).id := by rw [hid]; exact idAt_main ok hq1 hk
  obtain ⟨hkept, hmem⟩ := kept ha
  rw [← hidt] at hst
  rw [hs.sid, hs.signer] at hn
  have htr := updates hs ha (ha.awaited hy) hu
  obtain ⟨c, h1, h2, h3, h4, h5, h5', h6, h7⟩ := enterMain ok hG hi hq1 hs.len hent htr
    (cs := (Accum.filterMessages a.cached (z.pl.idAt (t + 1))).filter (fun m => !tr.isBanned m.sender))
    ⟨fun vm hvm => hkept.good vm (List.mem_filter.1 hvm).1⟩ hn hst
  refine ⟨c, h1, h2, h3, h4, ?_, ?_, h6, h7⟩
  · intro x hx
    obtain ⟨vm, hvm, rfl⟩ := h5 x hx
    exact hmem vm (List.mem_filter.1 hvm).1
  · intro x hx hc
    obtain ⟨vm, hvm, rfl⟩ := kept_mem ha hc
    refine h5' vm (List.mem_filter.2 ⟨hvm, ?_⟩) hx
    have hp := htr.provable _ hx
    have hu := htr.unprovable _ hx
    simp [Transcript.isBanned, contains_isSome, hp, hu]

end Byz

end Manul
