import Verif.Model.Erased

/-!
# Specification: what the rounds of a protocol are given
-/

namespace Manul

namespace Rounds

variable {sp : SP} {U : Types} (R : Rounds sp U)

/-- The message part of a round of type `t` stands for the value: it is empty and the type is `NoMessage`, or it is the
serialized value. -/
def Means {k : PartKind} (t : R.Tag) (p : Part k) (v : U.El (R.msg t k)) : Prop :=
  (R.msg t k = U.noMessage ∧ HEq v U.nothing ∧ p.payload = none) ∨
    (R.msg t k ≠ U.noMessage ∧ ∃ b, p.payload = some b ∧ U.de (R.msg t k) b = some v)

/-- What `finalize` of a round is meant to be called with: for exactly the parties messages are expected from, a payload
that this round has made of a message of the party; for exactly the destinations, an artifact that `make` has returned
along with the message for the party. -/
structure TypedArgs (t : R.Tag) (st : R.St t)
    (make : sp.Rng → sp.Id → Except LErr (U.El (R.msg t .direct) × U.El (R.artifact t)))
    (ps : BMap sp.Id (U.El (R.payload t))) (as : BMap sp.Id (U.El (R.artifact t))) : Prop where
  payloadKeys : ∀ x, ps.contains x = (R.comm t st).expecting.contains x
  artifactKeys : ∀ x, as.contains x = (R.comm t st).destinations.contains x
  payload : ∀ x v, ps.get? x = some v → ∃ (m : DynMsg) (d : U.El (R.msg t .direct)) (e : U.El (R.msg t .echo))
    (n : U.El (R.msg t .normal)), R.Means t m.direct d ∧ R.Means t m.echo e ∧ R.Means t m.normal n ∧
      R.receive t st x d e n = .ok v
  artifact : ∀ x v, as.get? x = some v → ∃ rng d, make rng x = .ok (d, v)

/-- Extensions, each for the round type it is meant for. -/
abbrev TypedExts : Type := (t : R.Tag) → Option (R.TypedExt t)

/-- The map of extensions. -/
def extMap (f : R.TypedExts) : R.ExtMap := fun t =>
  match f t with
  | none => none
  | some e => some ⟨t, e⟩

/-- The extension a list of registrations gives a round type: the last one for this type. -/
def lastFor : List (Σ t, R.TypedExt t) → R.TypedExts
  | [], _ => none
  | e :: l, t =>
    match lastFor l t with
    | some e' => some e'
    | none => letI := R.decTag; if h : e.1 = t then some (h ▸ e.2) else none

/-- The protocol a set of extensions is meant to give: in a round whose type has an extension, the four extensible methods
are those of the extension. -/
def overridden (f : R.TypedExts) : Rounds sp U :=
  { R with
    makeDirect := fun t =>
      match f t with
      | some e => e.makeDirect
      | none => R.makeDirect t
    makeEcho := fun t =>
      match f t with
      | some e => e.makeEcho
      | none => R.makeEcho t
    makeNormal := fun t =>
      match f t with
      | some e => e.makeNormal
      | none => R.makeNormal t
    finalize := fun t =>
      match f t with
      | some e => e.finalize
      | none => R.finalize t }

/-- The entry point of the protocol with extensions: the original one. -/
def overriddenEntry (f : R.TypedExts) (ep : EntryPoint R.wrap) : EntryPoint (R.overridden f).wrap where
  entryRoundId := ep.entryRoundId
  makeRound := ep.makeRound

end Rounds

end Manul
