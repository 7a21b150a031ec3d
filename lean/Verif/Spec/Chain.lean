import Verif.Spec.Exec
import Verif.Model.Chain

/-!
# Specification: round ids and evidence in nested chains
-/

namespace Manul

variable {sp : SP}

/-- The id of a round of the sub-protocol at the given path of groups, outermost first. -/
def RoundId.under (path : List U8) (r : RoundId) : RoundId := path.foldr (fun g r => r.groupUnder g) r

/-- A property of the rounds of a chain: one of the rounds of the first protocol and one of those of the second. -/
def ChainRd.both {P1 P2 : Proto sp} {J : ChainJoin P1 P2} (I1 : P1.Rd → Prop) (I2 : P2.Rd → Prop) : ChainRd J → Prop
  | .one _ r _ _ => I1 r
  | .two r => I2 r

/-- `Q` is the sub-protocol of `P` at the path; `proj` selects its part of the shared data. -/
inductive SubProto : (P : Proto sp) → List U8 → (Q : Proto sp) → (P.Shared → Q.Shared) → Prop where
  | self {P : Proto sp} : SubProto P [] P (fun d => d)
  | first {P1 P2 Q : Proto sp} {J : ChainJoin P1 P2} {path : List U8} {proj : P1.Shared → Q.Shared} :
      SubProto P1 path Q proj → SubProto (chain P1 P2 J) (1 :: path) Q (fun d => proj d.1)
  | second {P1 P2 Q : Proto sp} {J : ChainJoin P1 P2} {path : List U8} {proj : P2.Shared → Q.Shared} :
      SubProto P2 path Q proj → SubProto (chain P1 P2 J) (2 :: path) Q (fun d => proj d.2)

/-- A map of things by rounds of the chain, and the same map by rounds of the sub-protocol. -/
structure Regrouped {V : Type} (path : List U8) (m m' : BMap RoundId V) : Prop where
  same : ∀ r : RoundId, m.get? (r.under path) = m'.get? r
  only : ∀ k, m.contains k = true → ∃ r : RoundId, k = r.under path

/-- The round info of the chain does what that of the sub-protocol does, for the ids of the sub-protocol. -/
structure Delegates {S S' : Type} (path : List U8) (proj : S' → S) (i : RoundInfo sp S') (j : RoundInfo sp S) : Prop where
  direct : i.directInvalid = j.directInvalid
  echo : i.echoInvalid = j.echoInvalid
  normal : i.normalInvalid = j.normalInvalid
  evidence : ∀ (rid : RoundId) err guilty sid shared msg prev comb prev' comb', Regrouped path prev prev' → Regrouped path comb comb' →
    i.verifyEvidence (rid.under path) err guilty sid shared msg prev comb =
      j.verifyEvidence rid err guilty sid (proj shared) msg prev' comb'

/-- The round of the nested chain is, at the path, the round of the sub-protocol. -/
inductive InnerRound : (P : Proto sp) → P.Rd → List U8 → (Q : Proto sp) → Q.Rd → Prop where
  | self {P : Proto sp} {r : P.Rd} : InnerRound P r [] P r
  | first {P1 P2 Q : Proto sp} {J : ChainJoin P1 P2} {path : List U8} {r : P1.Rd} {q : Q.Rd} (id : sp.Id) (sr : Bytes) (d : J.Data) :
      InnerRound P1 r path Q q → InnerRound (chain P1 P2 J) (.one id r sr d) (1 :: path) Q q
  | second {P1 P2 Q : Proto sp} {J : ChainJoin P1 P2} {path : List U8} {r : P2.Rd} {q : Q.Rd} :
      InnerRound P2 r path Q q → InnerRound (chain P1 P2 J) (.two r) (2 :: path) Q q

/-- The parts of an earlier message are asked for. -/
def RequiredMessages.AsksPrevious (req : RequiredMessages) (rid : RoundId) (rp : RequiredParts) : Prop :=
  ∃ all, req.previous = some all ∧ all.get? rid = some rp

/-- The echo broadcasts of an earlier round are asked for. -/
def RequiredMessages.AsksCombined (req : RequiredMessages) (rid : RoundId) : Prop :=
  ∃ all, req.combined = some all ∧ all.contains rid = true

/-- The same messages are asked for, by the ids of the chain. -/
structure RequiredMessages.Under (path : List U8) (inner outer : RequiredMessages) : Prop where
  this : outer.thisRound = inner.thisRound
  previous : ∀ rid rp, outer.AsksPrevious rid rp ↔ ∃ r : RoundId, rid = r.under path ∧ inner.AsksPrevious r rp
  combined : ∀ rid, outer.AsksCombined rid ↔ ∃ r : RoundId, rid = r.under path ∧ inner.AsksCombined r

end Manul
