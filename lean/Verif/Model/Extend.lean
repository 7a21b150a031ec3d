import Verif.Model.Round

/-!
# Round extensions

Model of `/repo/manul/src/dev/extend.rs`.

Simplification: an extension's message methods are given after serialization (`RoundWrapper` around `ExtendedRound`
serializes the value the extension returns, exactly as for the original round).  `ExtendedProtocolError` is a newtype
around the original error with the same required messages and, being a serde newtype, the same serialized form
(`extend.rs:88-111`), so receiving is unchanged.
-/

namespace Manul

/-- `RoundExtension` (`extend.rs:29-86`): the methods called instead of those of the round. -/
structure Ext {sp : SP} (P : Proto sp) where
  makeDirect : P.Rd → sp.Rng → sp.Id → Except LErr (Part .direct × P.Artifact)
  makeEcho : P.Rd → sp.Rng → Except LErr (Part .echo)
  makeNormal : P.Rd → sp.Rng → Except LErr (Part .normal)
  finalize : P.Rd → sp.Rng → BMap sp.Id P.Payload → BMap sp.Id P.Artifact → Except LErr (Outcome P.Rd P.Result)

/-- The default methods of `RoundExtension` (`extend.rs:36-85`). -/
def Ext.default {sp : SP} (P : Proto sp) : Ext P where
  makeDirect := P.makeDirect
  makeEcho := P.makeEcho
  makeNormal := P.makeNormal
  finalize := P.finalize

/-- `ExtendedRound` (`extend.rs:115-126`) when `ext` is present, `PassthroughRound` (`extend.rs:242-245`) otherwise.
`exts` is the map from round types to extensions. -/
structure ExtRd {sp : SP} (P : Proto sp) (Tag : Type) where
  inner : P.Rd
  ext : Option (Ext P)
  exts : Tag → Option (Ext P)

/-- `wrap_round` (`extend.rs:310-323`).  `ty` gives the round type, `none` for a dynamic round (`as_typed` fails).  The
map is keyed by the type the extension is for (`extend.rs:357-364`), so the `expect` cannot fire. -/
def wrapRound {sp : SP} {P : Proto sp} {Tag : Type} (ty : P.Rd → Option Tag) (exts : Tag → Option (Ext P))
    (r : P.Rd) : Except LErr (ExtRd P Tag) :=
  match ty r with
  | none => .error .dynamicAsTyped
  | some t => .ok ⟨r, exts t, exts⟩

/-- Wrapping the next round after `finalize` (`extend.rs:190-195, 260-264`). -/
def wrapOutcome {sp : SP} {P : Proto sp} {Tag : Type} (ty : P.Rd → Option Tag) (exts : Tag → Option (Ext P)) :
    Outcome P.Rd P.Result → Except LErr (Outcome (ExtRd P Tag) P.Result)
  | .result r => .ok (.result r)
  | .anotherRound r =>
    match wrapRound ty exts r with
    | .error e => .error e
    | .ok r' => .ok (.anotherRound r')

/-- The protocol run through `ExtendableEntryPoint`: the same `Protocol`, other round objects
(`extend.rs:128-196, 247-308`). -/
def extend {sp : SP} (P : Proto sp) {Tag : Type} (ty : P.Rd → Option Tag) : Proto sp where
  Rd := ExtRd P Tag
  Payload := P.Payload
  Artifact := P.Artifact
  Result := P.Result
  Shared := P.Shared
  transition := fun r => P.transition r.inner
  comm := fun r => P.comm r.inner
  makeDirect := fun r =>
    match r.ext with
    | some e => e.makeDirect r.inner
    | none => P.makeDirect r.inner
  makeEcho := fun r =>
    match r.ext with
    | some e => e.makeEcho r.inner
    | none => P.makeEcho r.inner
  makeNormal := fun r =>
    match r.ext with
    | some e => e.makeNormal r.inner
    | none => P.makeNormal r.inner
  receive := fun r => P.receive r.inner
  finalize := fun r rng ps as =>
    match (match r.ext with
      | some e => e.finalize r.inner rng ps as
      | none => P.finalize r.inner rng ps as) with
    | .error e => .error e
    | .ok o => wrapOutcome ty r.exts o
  roundInfo := P.roundInfo

/-- `ExtendableEntryPoint` (`extend.rs:328-385`). -/
def extendEntry {sp : SP} {P : Proto sp} {Tag : Type} (ty : P.Rd → Option Tag) (ep : EntryPoint P)
    (exts : Tag → Option (Ext P)) : EntryPoint (extend P ty) where
  entryRoundId := ep.entryRoundId
  makeRound := fun rng sr id =>
    match ep.makeRound rng sr id with
    | .error e => .error e
    | .ok r => wrapRound ty exts r

/-- `ExtendableEntryPoint::extend` (`extend.rs:357-364`): later registrations replace earlier ones. -/
def addExt {sp : SP} {P : Proto sp} {Tag : Type} [DecidableEq Tag] (exts : Tag → Option (Ext P)) (t : Tag)
    (e : Ext P) : Tag → Option (Ext P) :=
  fun t' => if t' = t then some e else exts t'

end Manul
