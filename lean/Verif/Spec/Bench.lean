import Verif.Model.Bench
import Verif.Spec.Network

/-! # Specification of the protocols of the benchmarks -/

namespace Manul

/-- Messages are serialized and deserialized to themselves. -/
structure BenchWork.Lawful {W : Type} (b : BenchWork W) : Prop where
  direct : ∀ w, ∃ x, b.serDirect w = .ok x ∧ b.deDirect x = some w
  echo : ∃ x, b.serEcho = .ok x ∧ b.deEcho x = some ()

/-- The work of the rounds `1 … n` can be done. -/
def BenchWork.Works {W : Type} (b : BenchWork W) (n : U8) : Prop := ∀ c : U8, 1 ≤ c.val → c.val ≤ n.val → ∃ w, b.work c = .ok w

variable (sp : SP) {W : Type} [DecidableEq W] (b : BenchWork W) (checks plainEcho : Bool) (roundsNum : U8) (echo : Bool)
  (ids : BSet sp.Id) (signer : sp.Id → sp.Signer) (sid : Bytes)

/-- The nodes of a benchmark (`empty_rounds.rs:205-228,243-257`). -/
def benchGroup : Group (bench sp b checks plainEcho).wrap where
  parties := ids
  signer := signer
  ep i := benchEntry sp b checks plainEcho ⟨roundsNum, echo, ids.erase i⟩
  sid := sid

/-- The intended execution: everybody sends messages to everybody in rounds `1 … roundsNum`; the first one has an echo round. -/
def benchPlan : Plan (bench sp b checks plainEcho).wrap :=
  Plan.allToAll (benchGroup sp b checks plainEcho roundsNum echo ids signer sid) (fun k => RoundId.new (Fin.ofNat 256 (k + 1)))
    (fun k => echo && decide (k = 0)) roundsNum.val

end Manul
