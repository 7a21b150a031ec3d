import Verif.Lemmas.ChainNet
import Verif.Model.SimpleChain
import Verif.Props.Simple

/-!
# Chained protocols over an asynchronous network (C51)

If the first protocol is cooperative, and so is the second one with any entry points made from results of the first one, then
all parties executing the chained protocol finish, with the results of the second protocol.
-/

namespace Manul

section

variable {sp : SP} {P1 P2 : Proto sp} {J : ChainJoin P1 P2} {c : ChainPlan J}

/-- The session parameters work, the keys belong to the ids, and the two protocols are cooperative. -/
structure ChainPlan.Ok (c : ChainPlan J) : Prop where
  env : sp.EnvOk
  sc : sp.SignCorrect
  srt : sp.SigRoundTrip
  ert : sp.EchoRoundTrip
  keys : c.group.KeysMatch
  coop : c.Cooperates

theorem ChainPlan.Ok.plan (ok : c.Ok) : c.plan.Ok := ⟨ok.env, ok.sc, ok.srt, ok.ert, ok.keys, ok.coop.cooperative⟩

/-- **C51.**  Chaining protocols that succeed gives a protocol that succeeds. -/
theorem C51_cooperative (h : c.Cooperates) : Cooperative c.plan := h.cooperative

/-- **C51.**  When nothing more can happen in the network, everybody has finished the chained protocol, and nothing is recorded
against anybody. -/
theorem C51_finishes (rng : sp.Rng) (ok : c.Ok) {n : Net (chain P1 P2 J)} (h : NetReach c.group n)
    (hstuck : ∀ n', ¬ NetStep c.group n n') : AllFinished c.group n := C41_finishes rng ok.plan h hstuck

/-- **C51.**  It comes to that: the number of steps is bounded by the stages of both protocols. -/
theorem C51_terminates (ok : c.Ok) {k : Nat} {n : Net (chain P1 P2 J)} (h : NetTakes c.group k n) :
    k ≤ c.pl1.g.parties.elems.length * ((c.pl1.g.parties.elems.length + 1) * (4 * (c.pl1.n + c.n2))) :=
  C41_terminates ok.plan h

/-- **C51.**  The results are those of the second protocol: there are an execution of the first protocol by everybody, with
results `res`, and an execution of the second protocol by everybody with the entry points made from `res`, and each party that
finishes does so with its result in the latter. -/
theorem C51_results (ok : c.Ok) {n : Net (chain P1 P2 J)} (h : NetReach c.group n) :
    ∃ (G1 : History P1) (G2 : History P2) (res : sp.Id → P1.Result), Honest c.pl1.g G1 ∧ Honest (c.group2 res) G2 ∧
      ∀ i rep, n.node i = some (.done (.ok rep)) →
        (∃ rng, (G1 i).length = c.pl1.n ∧ Finalizes G1 i rng (.result (res i))) ∧
        ∃ v rng, rep.outcome = .result v ∧ (G2 i).length = c.n2 ∧ Finalizes G2 i rng (.result v) := by
  obtain ⟨H, hH, hres⟩ := C41_results ok.plan h
  obtain ⟨G1, G2, res, hs⟩ := ChainPlan.splits ok.coop.first ok.coop.results hH
  refine ⟨G1, G2, res, hs.first, hs.second res (fun _ _ => rfl), ?_⟩
  intro i rep hn
  obtain ⟨hl, v, rng, hv, hf⟩ := hres i rep hn
  have hlen : (H i).length = (G1 i).length + (G2 i).length := by rw [hs.cells]; simp
  have hl' : (H i).length = c.pl1.n + c.n2 := hl
  obtain ⟨v0⟩ := ok.coop.results
  obtain ⟨res0, -, c2⟩ := ok.coop.second (fun _ => []) (fun _ => False) (fun _ => v0) .nil (fun _ h => h.elim)
  have hn2 : 0 < c.n2 := c2.stages
  have hn1 := ok.coop.first.stages
  have hi : c.pl1.g.parties.contains i = true := hH.party (g := c.group) (by
    intro he
    rw [he] at hl'
    simp at hl'
    omega)
  rcases hs.finalizes ok.coop.first hi hf with ⟨-, r, -, -, h2⟩ | ⟨-, -, w, r, -, -, h2⟩ | ⟨hne, ⟨r, -, h2⟩ | ⟨w, h1, h2⟩⟩
  · exact absurd h2 (by simp)
  · exact absurd h2 (by simp)
  · exact absurd h2 (by simp)
  · obtain ⟨-, hl1, rng1, hr1⟩ := hs.done i hne
    exact ⟨⟨rng1, hl1, hr1⟩, v, rng, hv, by omega, by rw [Outcome.result.inj h2]; exact h1⟩

end

/-! ### The example protocol `simple_chain` -/

section

variable {sp : SP} {fmt : SimpleFormat} {checks : Bool} {ids : BSet sp.Id} {signer : sp.Id → sp.Signer} {sid : Bytes}

/-- The plan: twice the plan of `simple`. -/
def doubleSimplePlan (sp : SP) (fmt : SimpleFormat) (checks : Bool) (ids : BSet sp.Id) (signer : sp.Id → sp.Signer) (sid : Bytes) :
    ChainPlan (doubleSimpleJoin sp fmt checks) where
  pl1 := simplePlan sp fmt checks ids signer sid
  data _ := ids
  rid2 := (simplePlan sp fmt checks ids signer sid).rid
  echoAt2 := (simplePlan sp fmt checks ids signer sid).echoAt
  n2 := (simplePlan sp fmt checks ids signer sid).n
  dests2 := (simplePlan sp fmt checks ids signer sid).dests
  expects2 := (simplePlan sp fmt checks ids signer sid).expects

/-- All parties execute `simple_chain` with the given ids. -/
def doubleSimpleGroup (sp : SP) (fmt : SimpleFormat) (checks : Bool) (ids : BSet sp.Id) (signer : sp.Id → sp.Signer) (sid : Bytes) :
    Group (doubleSimple sp fmt checks) where
  parties := ids
  signer := signer
  ep _ := doubleSimpleEntry sp fmt checks ids
  sid := sid

theorem doubleSimple_cooperates (hf : fmt.Lawful) (hb : SumsFit checks ids) :
    (doubleSimplePlan sp fmt checks ids signer sid).Cooperates := by
  have hc : Cooperative (simplePlan sp fmt checks ids signer sid) := simple_cooperative hf (by
    rcases hb with h | h
    · exact Or.inl h
    · right
      have := posTotal_le ids
      omega)
  refine ⟨hc, ?_, ⟨(0 : U8)⟩, ?_, rfl, ?_, ?_⟩
  · intro G D res _ _
    exact ⟨res, fun _ _ => rfl, hc⟩
  · intro G i r hG hi he hl
    have hl' : (G i).length + 1 = 2 := hl
    rcases (simple_roundInv (checks := checks) (ids := ids) (signer := signer) (sid := sid) hf).entering hG hi he with
      ⟨h, rfl⟩ | ⟨h, rfl⟩
    · omega
    · rfl
  · exact fun _ _ _ _ h => h
  · exact fun _ _ _ _ h => h

/-- **C51.**  In `simple_chain` every party that finishes does so with the result of `simple`, `n(n - 1)`. -/
theorem C51_double_simple (hf : fmt.Lawful) (hw : ParamsWork sp ids signer) (hb : SumsFit checks ids)
    {n : Net (doubleSimple sp fmt checks)} (h : NetReach (doubleSimpleGroup sp fmt checks ids signer sid) n) {i : sp.Id}
    {rep : Report (doubleSimple sp fmt checks)} (hn : n.node i = some (.done (.ok rep))) (hi : ids.contains i = true) :
    rep.outcome = .result (Fin.ofNat 256 (partyCount ids * (partyCount ids - 1)) : U8) := by
  have ok : (doubleSimplePlan sp fmt checks ids signer sid).Ok :=
    ⟨hw.env, hw.sc, hw.srt, hw.ert, hw.keys, doubleSimple_cooperates hf hb⟩
  obtain ⟨G1, G2, res, -, hG2, hres⟩ := C51_results ok h
  obtain ⟨-, v, rng, hv, -, hf2⟩ := hres i rep hn
  rw [hv]
  exact congrArg SessionOutcome.result (simple_result (signer := signer) (sid := sid) hf hb hG2 hi hf2)

/-- **C51.**  Everybody finishes `simple_chain`, with the same result. -/
theorem C51_double_simple_finishes (rng : sp.Rng) (hf : fmt.Lawful) (hw : ParamsWork sp ids signer) (hb : SumsFit checks ids)
    {n : Net (doubleSimple sp fmt checks)} (h : NetReach (doubleSimpleGroup sp fmt checks ids signer sid) n)
    (hstuck : ∀ n', ¬ NetStep (doubleSimpleGroup sp fmt checks ids signer sid) n n') {i : sp.Id} (hi : ids.contains i = true) :
    ∃ rep : Report (doubleSimple sp fmt checks), n.node i = some (.done (.ok rep)) ∧
      rep.outcome = .result (Fin.ofNat 256 (partyCount ids * (partyCount ids - 1)) : U8) ∧ rep.provable.isEmpty = true ∧
      rep.unprovable.isEmpty = true ∧ rep.missing.isEmpty = true := by
  have ok : (doubleSimplePlan sp fmt checks ids signer sid).Ok :=
    ⟨hw.env, hw.sc, hw.srt, hw.ert, hw.keys, doubleSimple_cooperates hf hb⟩
  obtain ⟨rep, v, h1, h2, h3⟩ := C51_finishes rng ok h hstuck i hi
  exact ⟨rep, h1, C51_double_simple hf hw hb h h1 hi, h3⟩

end

/-! ### Examples -/

/-- Three parties, as in the test of the repository: everybody finishes with `6`. -/
example : ∃ n : Net (doubleSimple toy simpleFmt true),
    NetReach (doubleSimpleGroup toy simpleFmt true (BSet.ofList [5, 7, 9] : BSet U8) (fun i => i) [9]) n ∧
      netResult n 5 = some (6 : U8) ∧ netResult n 7 = some (6 : U8) ∧ netResult n 9 = some (6 : U8) := by
  refine ⟨netRun _ ([.start 5, .start 7, .deliver 3, .deliver 0, .start 9] ++
    (List.replicate 24 [NetAct.deliver 3, .deliver 2, .deliver 1, .deliver 0, .tick 5, .tick 7, .tick 9]).flatten) Net.init,
    netRun_reach _ .init, ?_⟩
  have h : ([5, 7, 9].map (fun i => netResult (netRun (doubleSimpleGroup toy simpleFmt true (BSet.ofList [5, 7, 9] : BSet U8) (fun i => i) [9])
      ([.start 5, .start 7, .deliver 3, .deliver 0, .start 9] ++
    (List.replicate 24 [NetAct.deliver 3, .deliver 2, .deliver 1, .deliver 0, .tick 5, .tick 7, .tick 9]).flatten) Net.init) i) :
      List (Option U8)) = [some 6, some 6, some 6] := by decide +kernel
  exact ⟨(List.cons.inj h).1, (List.cons.inj (List.cons.inj h).2).1, (List.cons.inj (List.cons.inj (List.cons.inj h).2).2).1⟩

/-- The assumptions of the general theorems hold for `simple_chain` with three parties. -/
example : (doubleSimplePlan toy simpleFmt true (BSet.ofList [5, 7, 9] : BSet U8) (fun i => i) [9]).Ok :=
  ⟨toy_envOk, toy_signCorrect, toy_sigRoundTrip, toy_echoRoundTrip, fun _ _ => rfl,
    doubleSimple_cooperates simpleFmt_lawful (Or.inr (by decide +kernel))⟩

end Manul
