import Verif.Model.Round

/-!
# The chain combinator

Model of `/repo/manul/src/combinators/chain.rs`.

Simplification: the payload and artifact types of the chained protocol are the sums of those of the parts, and a round
of one part given a box of the other part fails with the downcast error, as in Rust.
-/

namespace Manul

/-- `ChainedJoin` (`chain.rs:268-280`): the data kept from the split, and how it and the first result make the second
entry point.  `entryRoundId` is `T::EntryPoint::entry_round_id()`, a constant of the type. -/
structure ChainJoin {sp : SP} (P1 P2 : Proto sp) where
  Data : Type
  entryRoundId : RoundId
  makeRound2 : Data → P1.Result → sp.Rng → Bytes → sp.Id → Except LErr P2.Rd

/-- `ChainState` (`chain.rs:323-335`). -/
inductive ChainRd {sp : SP} {P1 P2 : Proto sp} (J : ChainJoin P1 P2) where
  | one (id : sp.Id) (round : P1.Rd) (sharedRandomness : Bytes) (data : J.Data)
  | two (round : P2.Rd)

/-- Downcast of every box of a map to the left component. -/
def castLeft {K A B : Type} [LinearOrder K] (m : BMap K (A ⊕ B)) : Except LErr (BMap K A) :=
  match mapE (fun e : K × (A ⊕ B) =>
      match e.2 with
      | .inl a => Except.ok (e.1, a)
      | .inr _ => Except.error LErr.downcast) m.toList with
  | .error e => .error e
  | .ok l => .ok (BMap.ofList l)

/-- Downcast of every box of a map to the right component. -/
def castRight {K A B : Type} [LinearOrder K] (m : BMap K (A ⊕ B)) : Except LErr (BMap K B) :=
  match mapE (fun e : K × (A ⊕ B) =>
      match e.2 with
      | .inr b => Except.ok (e.1, b)
      | .inl _ => Except.error LErr.downcast) m.toList with
  | .error e => .error e
  | .ok l => .ok (BMap.ofList l)

/-- `ungroup` (`chain.rs:89-97`). -/
def ungroup (g : U8) (r : RoundId) : Except LErr RoundId :=
  match r.splitGroup with
  | .error e => .error e
  | .ok (g', r') => if g' ≠ g then .error .wrongGroup else .ok r'

/-- `ungroup_map` (`chain.rs:99-104`). -/
def ungroupMap {V : Type} (g : U8) (m : BMap RoundId V) : Except LErr (BMap RoundId V) :=
  match mapE (fun e : RoundId × V =>
      match ungroup g e.1 with
      | .error err => Except.error err
      | .ok r => Except.ok (r, e.2)) m.toList with
  | .error e => .error e
  | .ok l => .ok (BMap.ofList l)

/-- `RoundInfo1`/`RoundInfo2` (`chain.rs:106-228`). -/
def chainInfo {sp : SP} {S S' : Type} (g : U8) (proj : S' → S) (i : RoundInfo sp S) : RoundInfo sp S' where
  directInvalid := i.directInvalid
  echoInvalid := i.echoInvalid
  normalInvalid := i.normalInvalid
  verifyEvidence := fun rid err guilty sid shared msg prev comb =>
    match ungroup g rid with
    | .error e => .error (.local e)
    | .ok rid' =>
      match ungroupMap g prev with
      | .error e => .error (.local e)
      | .ok prev' =>
        match ungroupMap g comb with
        | .error e => .error (.local e)
        | .ok comb' => i.verifyEvidence rid' err guilty sid (proj shared) msg prev' comb'

/-- The chained protocol (`chain.rs:230-250`) with its rounds (`chain.rs:337-461`). -/
def chain {sp : SP} (P1 P2 : Proto sp) (J : ChainJoin P1 P2) : Proto sp where
  Rd := ChainRd J
  Payload := P1.Payload ⊕ P2.Payload
  Artifact := P1.Artifact ⊕ P2.Artifact
  Result := P2.Result
  Shared := P1.Shared × P2.Shared
  transition := fun
    | .one _ r _ _ =>
      let t := (P1.transition r).groupUnder 1
      if t.mayProduceResult then
        { t with mayProduceResult := false, children := BSet.insert t.children (J.entryRoundId.groupUnder 2) }
      else t
    | .two r => (P2.transition r).groupUnder 2
  comm := fun
    | .one _ r _ _ => P1.comm r
    | .two r => P2.comm r
  makeDirect := fun c rng d =>
    match c with
    | .one _ r _ _ =>
      match P1.makeDirect r rng d with
      | .error e => .error e
      | .ok (p, a) => .ok (p, .inl a)
    | .two r =>
      match P2.makeDirect r rng d with
      | .error e => .error e
      | .ok (p, a) => .ok (p, .inr a)
  makeEcho := fun
    | .one _ r _ _ => P1.makeEcho r
    | .two r => P2.makeEcho r
  makeNormal := fun
    | .one _ r _ _ => P1.makeNormal r
    | .two r => P2.makeNormal r
  receive := fun c sender m =>
    match c with
    | .one _ r _ _ =>
      match P1.receive r sender m with
      | .error e => .error (e.groupUnder 1)
      | .ok p => .ok (.inl p)
    | .two r =>
      match P2.receive r sender m with
      | .error e => .error (e.groupUnder 2)
      | .ok p => .ok (.inr p)
  finalize := fun c rng ps as =>
    match c with
    | .one id r sr d =>
      match castLeft ps with
      | .error e => .error e
      | .ok ps' =>
        match castLeft as with
        | .error e => .error e
        | .ok as' =>
          match P1.finalize r (sp.fork rng 0) ps' as' with
          | .error e => .error e
          | .ok (.result res) =>
            match J.makeRound2 d res (sp.fork rng 1) sr id with
            | .error e => .error e
            | .ok r2 => .ok (.anotherRound (.two r2))
          | .ok (.anotherRound r') => .ok (.anotherRound (.one id r' sr d))
    | .two r =>
      match castRight ps with
      | .error e => .error e
      | .ok ps' =>
        match castRight as with
        | .error e => .error e
        | .ok as' =>
          match P2.finalize r rng ps' as' with
          | .error e => .error e
          | .ok (.result res) => .ok (.result res)
          | .ok (.anotherRound r') => .ok (.anotherRound (.two r'))
  roundInfo := fun rid =>
    match rid.splitGroup with
    | .error _ => none
    | .ok (g, rid') =>
      if g = 1 then (P1.roundInfo rid').map (chainInfo 1 Prod.fst)
      else if g = 2 then (P2.roundInfo rid').map (chainInfo 2 Prod.snd)
      else none

/-- The entry point of the chained protocol (`chain.rs:282-311`): from the entry point of the first protocol and the
join data produced by `ChainedSplit::make_entry_point1`. -/
def chainEntry {sp : SP} {P1 P2 : Proto sp} {J : ChainJoin P1 P2} (ep : EntryPoint P1) (data : J.Data) :
    EntryPoint (chain P1 P2 J) where
  entryRoundId := ep.entryRoundId.groupUnder 1
  makeRound := fun rng sr id =>
    match ep.makeRound rng sr id with
    | .error e => .error e
    | .ok r => .ok (.one id r sr data)

end Manul
