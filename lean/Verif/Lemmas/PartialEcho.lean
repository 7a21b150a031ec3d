import Verif.Spec.PartialEcho
import Verif.Lemmas.SchemePlan
import Verif.Lemmas.Cooperative

/-! # The protocol of the test `partial_echo` is cooperative -/

namespace Manul

variable {sp : SP} {fmt : SenderFormat sp} {ids : BSet sp.Id} {inp : sp.Id → PartialInputs sp.Id}
  {signer : sp.Id → sp.Signer} {sid : Bytes}

theorem partial_runsEcho {k : Nat} {i : sp.Id} :
    (partialScheme sp fmt ids inp signer sid).runsEcho k i = (inp i).runsEcho := by
  simp only [Scheme.runsEcho, PartialInputs.runsEcho, partialScheme, Bool.true_and]
  cases (inp i).participation <;> rfl

theorem partial_peers {k : Nat} {i : sp.Id} :
    (partialScheme sp fmt ids inp signer sid).peers k i = (inp i).peers := by
  simp only [Scheme.peers, PartialInputs.peers, partialScheme]
  cases (inp i).participation <;> rfl

theorem partial_compares {k : Nat} {i x : sp.Id} (h : (inp i).id = i) :
    (partialScheme sp fmt ids inp signer sid).compares k i x = (inp i).reported x := by
  simp only [Scheme.compares, PartialInputs.reported, partialScheme, h]
  cases (inp i).participation <;> rfl

theorem partial_pattern (h : InputsMatch ids inp) : (partialScheme sp fmt ids inp signer sid).Pattern := by
  have hothers : ∀ {i j : sp.Id}, ids.contains j = true ∧ j ≠ i →
      ((partialScheme sp fmt ids inp signer sid).g.others i).contains j = true := by
    rintro i j ⟨h1, h2⟩
    show BMap.contains (ids.erase i) j = true
    rw [BMap.contains_erase]
    simp [h1, h2]
  refine ⟨⟨?_, ?_, ?_, ?_, ?_, ?_⟩, ?_, ?_⟩
  · intro k i j _ hi hj
    exact h.matched i j hi hj
  · intro k i j _ hi hj
    exact hothers (h.dests i j hi hj)
  · intro k i j _ hi hj
    exact hothers (h.expects i j hi hj)
  · intro k i _ _ _
    rfl
  · intro k i j _ hi hr hj
    rw [partial_runsEcho] at hr
    rw [partial_peers] at hj
    obtain ⟨h1, h2, h3⟩ := h.peers i j hi hr hj
    exact ⟨hothers h1, partial_runsEcho.trans h2, by rw [partial_peers]; exact h3⟩
  · intro k i j _ hi hr hj x
    rw [partial_runsEcho] at hr
    rw [partial_peers] at hj
    rw [partial_compares (h.own i hi)]
    exact h.compared i j hi hr hj x
  · intro k i j h0 h1
    simp only [partialScheme] at h1
    omega
  · intro k i j h1
    simp only [partialScheme] at h1
    omega

/-- The rounds in an honest execution. -/
def PartialInv (inp : sp.Id → PartialInputs sp.Id) (k : Nat) (i : sp.Id) (r : PartialInputs sp.Id) : Prop := k = 0 ∧ r = inp i

theorem partial_roundInv : RoundInv (partialGroup sp fmt ids inp signer sid) (PartialInv inp) := by
  refine ⟨?_, ?_⟩
  · intro i rng r hi h
    cases h
    exact ⟨rfl, rfl⟩
  · intro G i k c ps rng r hi hG _ hc _ h
    cases h

theorem partial_makeEcho (hf : fmt.Lawful) {r : PartialInputs sp.Id} (hd : r.destinations.isEmpty = false) (rng : sp.Rng) :
    ∃ b, (partialEcho sp fmt).wrap.makeEcho r rng = .ok ⟨some b⟩ ∧ fmt.de b = some r.id := by
  obtain ⟨b, h1, h2⟩ := hf r.id
  refine ⟨b, ?_, h2⟩
  simp [TypedProto.wrap, partialEcho, hd, TypedProto.newPart, h1]

theorem partial_receive {b : Bytes} {r : PartialInputs sp.Id} {j : sp.Id} (hb : fmt.de b = some j)
    (hj : r.expecting.contains j = true) :
    (partialEcho sp fmt).wrap.receive r j ⟨⟨some b⟩, Part.none, Part.none⟩ = .ok () := by
  have hne : r.expecting.isEmpty = false := BMap.isEmpty_eq_false.2 ⟨j, hj⟩
  simp [TypedProto.wrap, TypedProto.wrapReceive, TypedProto.readPart, partialEcho, Part.none, hb, hne, hj, mapErr]

theorem partial_cooperative (hf : fmt.Lawful) (h : InputsMatch ids inp) :
    (partialScheme sp fmt ids inp signer sid).Cooperative := by
  have hI : RoundInv (partialScheme sp fmt ids inp signer sid).g (PartialInv inp) := partial_roundInv
  refine ⟨Nat.one_pos, ?_, fun _ _ => rfl, partial_pattern h, ?_, ?_, ?_, ?_, ?_, ?_, ?_, ?_, ?_⟩
  · intro k l hk hl _
    simp only [partialScheme] at hk hl
    omega
  · intro i _ rng
    exact ⟨_, rfl⟩
  · intro G i r hG hi hr
    rfl
  · intro G i r hG hi hr hlen
    simp only [partialScheme] at hlen
    omega
  · intro G i r hG hi hr
    obtain ⟨-, rfl⟩ := hI.entering hG hi hr
    rfl
  · intro G i r hG hi hr hne rng
    obtain ⟨-, rfl⟩ := hI.entering hG hi hr
    obtain ⟨b, h1, -⟩ := partial_makeEcho hf hne rng
    exact ⟨_, h1, rfl⟩
  · intro G i r hG hi hr hne rng
    exact ⟨Part.none, rfl⟩
  · intro G i r hG hi hr j hj rng
    exact ⟨(Part.none, ()), rfl⟩
  · intro G i j k ci cj p art hG hj hi hci hcj hd
    obtain ⟨-, ⟨-, h1⟩, -⟩ := hI.cells hG i k ci hci
    obtain ⟨hpj, ⟨-, h2⟩, hm⟩ := hI.cells hG j k cj hcj
    have hne : ((partialEcho sp fmt).wrap.comm cj.rd).destinations.isEmpty = false :=
      BMap.isEmpty_eq_false.2 ⟨i, (hm.dests i).symm.trans (BMap.contains_iff.2 ⟨_, hd⟩)⟩
    obtain ⟨r1, e1⟩ := hm.direct i _ hd
    obtain ⟨r2, e2⟩ := hm.echo hne
    obtain ⟨r3, e3⟩ := hm.normal hne
    obtain ⟨b, e4, e5⟩ := partial_makeEcho hf hne r2
    rw [e4] at e2
    have e6 : p = Part.none := (Prod.mk.inj (Except.ok.inj e1)).1.symm
    have e7 : cj.normal = Part.none := (Except.ok.inj e3).symm
    have e8 : cj.echo = ⟨some b⟩ := (Except.ok.inj e2).symm
    rw [e6, e7, e8, h1]
    rw [h2, h.own j hpj] at e5
    exact ⟨(), partial_receive e5 hj⟩
  · intro G i k c ps hG hi hlen hc hps rng
    obtain ⟨-, ⟨rfl, -⟩, -⟩ := hI.cells hG i k c hc
    exact ⟨.result (), rfl, _, rfl⟩

end Manul
