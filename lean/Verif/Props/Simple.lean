import Verif.Lemmas.Simple
import Verif.Props.Network

/-!
# The example protocol `simple` (C48)

All parties execute `run_session` on the protocol of `examples/src/simple.rs` over an asynchronous network.  The theorems hold
for all session parameters whose operations work, all wire formats and any number of parties.
-/

namespace Manul

section

variable {sp : SP} {fmt : SimpleFormat} {checks : Bool} {ids : BSet sp.Id} {signer : sp.Id → sp.Signer} {sid : Bytes}

/-- The sums fit into `u8`, or overflow wraps around. -/
def SumsFit (checks : Bool) (ids : BSet sp.Id) : Prop := checks = false ∨ partyCount ids * (partyCount ids - 1) < 256

/-- The session parameters work and the keys belong to the ids. -/
structure ParamsWork (sp : SP) (ids : BSet sp.Id) (signer : sp.Id → sp.Signer) : Prop where
  env : sp.EnvOk
  sc : sp.SignCorrect
  srt : sp.SigRoundTrip
  ert : sp.EchoRoundTrip
  keys : ∀ i, ids.contains i = true → sp.verifyingKey (signer i) = i

theorem simple_ok (hf : fmt.Lawful) (hw : ParamsWork sp ids signer) (hb : SumsFit checks ids) :
    (simplePlan sp fmt checks ids signer sid).Ok where
  env := hw.env
  sc := hw.sc
  srt := hw.srt
  ert := hw.ert
  keys := hw.keys
  coop := simple_cooperative hf (by
    rcases hb with h | h
    · exact Or.inl h
    · right
      have := posTotal_le ids
      omega)

/-- The result of an execution of the protocol. -/
theorem simple_result (hf : fmt.Lawful) (hb : SumsFit checks ids) {G : History (simple sp fmt checks).wrap}
    (hG : Honest (simpleGroup sp fmt checks ids signer sid) G) {i : sp.Id} (hi : ids.contains i = true) {rng : sp.Rng} {v : U8}
    (h : Finalizes G i rng (.result v)) : v = (Fin.ofNat 256 (partyCount ids * (partyCount ids - 1)) : U8) := by
  have hb' : checks = false ∨ 2 * posTotal ids < 256 := by
    rcases hb with h | h
    · exact Or.inl h
    · right
      have := posTotal_le ids
      omega
  obtain ⟨k, c, ps, h1, h2, h3, h4⟩ := h
  have hI := (simple_roundInv (checks := checks) (ids := ids) (signer := signer) (sid := sid) hf).cells hG
  obtain ⟨e1, e2⟩ := simple_payloads hf hI hi h3
  obtain ⟨-, hci, -⟩ := hI i k c h2
  rcases hci with ⟨rfl, hr⟩ | ⟨rfl, hr⟩
  · rw [hr] at h4
    exact absurd h4 simple_finalize1_not
  · rw [hr] at h4
    have := (simple_finalize2 (rng := rng) (fmt := fmt) hi e1 e2 hb').symm.trans h4
    rw [Outcome.result.inj (Except.ok.inj this)]

/-- **C48.**  Every party that finishes does so with the sum of all positions, twice: `2·(0 + 1 + … + (n - 1)) = n(n - 1)`. -/
theorem C48_result (hf : fmt.Lawful) (hw : ParamsWork sp ids signer) (hb : SumsFit checks ids)
    {n : Net (simple sp fmt checks).wrap} (h : NetReach (simpleGroup sp fmt checks ids signer sid) n) {i : sp.Id}
    {rep : Report (simple sp fmt checks).wrap} (hn : n.node i = some (.done (.ok rep))) (hi : ids.contains i = true) :
    rep.outcome = .result (Fin.ofNat 256 (partyCount ids * (partyCount ids - 1)) : U8) := by
  obtain ⟨G, hG, hres⟩ := C41_results (simple_ok (sid := sid) hf hw hb) h
  obtain ⟨-, v, rng, hv, hfin⟩ := hres i rep hn
  rw [hv, simple_result hf hb hG hi hfin]

/-- **C48.**  Everybody finishes: when nothing more can happen in the network (it comes to that, by `C41_terminates`), all
parties have the same result, and nothing is recorded against anybody. -/
theorem C48_finishes (rng : sp.Rng) (hf : fmt.Lawful) (hw : ParamsWork sp ids signer) (hb : SumsFit checks ids)
    {n : Net (simple sp fmt checks).wrap} (h : NetReach (simpleGroup sp fmt checks ids signer sid) n)
    (hstuck : ∀ n', ¬ NetStep (simpleGroup sp fmt checks ids signer sid) n n') {i : sp.Id} (hi : ids.contains i = true) :
    ∃ rep : Report (simple sp fmt checks).wrap, n.node i = some (.done (.ok rep)) ∧
      rep.outcome = .result (Fin.ofNat 256 (partyCount ids * (partyCount ids - 1)) : U8) ∧ rep.provable.isEmpty = true ∧
      rep.unprovable.isEmpty = true ∧ rep.missing.isEmpty = true := by
  obtain ⟨rep, v, h1, h2, h3⟩ := C41_finishes rng (simple_ok (sid := sid) hf hw hb) h hstuck i hi
  exact ⟨rep, h1, C48_result hf hw hb h h1 hi, h3⟩

/-- **C48.**  The number of steps is bounded, whatever the schedule. -/
theorem C48_terminates (hf : fmt.Lawful) (hw : ParamsWork sp ids signer) (hb : SumsFit checks ids) {k : Nat}
    {n : Net (simple sp fmt checks).wrap} (h : NetTakes (simpleGroup sp fmt checks ids signer sid) k n) :
    k ≤ partyCount ids * ((partyCount ids + 1) * 8) :=
  C41_terminates (simple_ok (sid := sid) hf hw hb) h

/-- **C48 (limit).**  With overflow checks the condition on the number of parties is needed: for 17 parties or more nobody who
follows the protocol obtains a result, as the sum overflows. -/
theorem C48_overflow_violation (hf : fmt.Lawful) (hbig : 17 ≤ partyCount ids) {G : History (simple sp fmt true).wrap}
    (hG : Honest (simpleGroup sp fmt true ids signer sid) G) {i : sp.Id} (hi : ids.contains i = true) (rng : sp.Rng) (v : U8) :
    ¬ Finalizes G i rng (.result v) := by
  rintro ⟨k, c, ps, h1, h2, h3, h4⟩
  have hI := (simple_roundInv (checks := true) (ids := ids) (signer := signer) (sid := sid) hf).cells hG
  obtain ⟨e1, e2⟩ := simple_payloads hf hI hi h3
  obtain ⟨-, hci, -⟩ := hI i k c h2
  rcases hci with ⟨rfl, hr⟩ | ⟨rfl, hr⟩
  · rw [hr] at h4
    exact absurd h4 simple_finalize1_not
  · rw [hr] at h4
    have := (simple_finalize2_panics (rng := rng) (fmt := fmt) hi e1 e2 (posTotal_big hbig)).symm.trans h4
    simp at this

end

/-! ### Examples -/

/-- The binary wire format: the fields one after the other; the rest of the bytes is ignored. -/
def simpleFmt : SimpleFormat where
  ser
    | .message1 a b => .ok [a, b]
    | .echo1 a => .ok [a]
    | .broadcast1 a b => .ok [a, b]
    | .message2 a b => .ok [a, b]
  de
    | .message1, a :: b :: _ => some (.message1 a b)
    | .echo1, a :: _ => some (.echo1 a)
    | .broadcast1, a :: b :: _ => some (.broadcast1 a b)
    | .message2, a :: b :: _ => some (.message2 a b)
    | _, _ => none
  serUnit := .ok []
  deUnit _ := some ()

theorem simpleFmt_lawful : simpleFmt.Lawful := by
  intro v
  cases v <;> exact ⟨_, rfl, rfl⟩

theorem toy_works (ids : BSet U8) : ParamsWork toy ids (fun i => i) where
  env := toy_envOk
  sc := toy_signCorrect
  srt := toy_sigRoundTrip
  ert := toy_echoRoundTrip
  keys := fun _ _ => rfl

/-- Sixteen parties, with overflow checks: the assumptions hold and the result is 240. -/
example {n : Net (simple toy simpleFmt true).wrap}
    (h : NetReach (simpleGroup toy simpleFmt true (BSet.ofList ((List.range 16).map (Fin.ofNat 256)) : BSet U8) (fun i => i) [9]) n)
    {i : U8} {rep : Report (simple toy simpleFmt true).wrap} (hn : n.node (i : U8) = some (.done (.ok rep))) (hi : i.val < 16) :
    rep.outcome = .result (240 : U8) := by
  have hc : partyCount (sp := toy) (BSet.ofList ((List.range 16).map (Fin.ofNat 256)) : BSet U8) = 16 := by decide +kernel
  have := C48_result simpleFmt_lawful (toy_works _) (Or.inr (by rw [hc]; decide)) h hn (by
    show BMap.contains (BSet.ofList ((List.range 16).map (Fin.ofNat 256)) : BSet U8) i = true
    rw [BSet.contains_ofList, decide_eq_true_eq, List.mem_map]
    exact ⟨i.val, List.mem_range.2 hi, u8_ofNat_val i⟩)
  rw [this, hc]
  rfl

/-- Three parties, as in the test of the repository: everybody finishes with `6`. -/
example : ∃ n : Net (simple toy simpleFmt true).wrap,
    NetReach (simpleGroup toy simpleFmt true (BSet.ofList [5, 7, 9] : BSet U8) (fun i => i) [9]) n ∧
      netResult n 5 = some (6 : U8) ∧ netResult n 7 = some (6 : U8) ∧ netResult n 9 = some (6 : U8) := by
  refine ⟨netRun _ ([.start 5, .start 7, .deliver 3, .deliver 0, .start 9] ++
    (List.replicate 12 [NetAct.deliver 3, .deliver 2, .deliver 1, .deliver 0, .tick 5, .tick 7, .tick 9]).flatten) Net.init,
    netRun_reach _ .init, ?_⟩
  have h : ([5, 7, 9].map (fun i => netResult (netRun (simpleGroup toy simpleFmt true (BSet.ofList [5, 7, 9] : BSet U8) (fun i => i) [9])
      ([.start 5, .start 7, .deliver 3, .deliver 0, .start 9] ++
    (List.replicate 12 [NetAct.deliver 3, .deliver 2, .deliver 1, .deliver 0, .tick 5, .tick 7, .tick 9]).flatten) Net.init) i) :
      List (Option U8)) = [some 6, some 6, some 6] := by decide +kernel
  exact ⟨(List.cons.inj h).1, (List.cons.inj (List.cons.inj h).2).1, (List.cons.inj (List.cons.inj (List.cons.inj h).2).2).1⟩

end Manul
