import Verif.Model.Basic

/-!
# Round identifiers and transition info

Model of `/repo/manul/src/protocol/round_id.rs`.
-/

namespace Manul

/-- `RoundId` (`round_id.rs:15-20`).  `groups` is the `TinyVec`, in storage order (innermost first, the outermost
group is at the end). -/
structure RoundId where
  round : U8
  groups : List U8
  isEcho : Bool
deriving Repr

/-- The derived `Ord` of `RoundId` (`round_id.rs:15`): lexicographic in field order. -/
def RoundId.key (r : RoundId) : U8 ×ₗ (List U8 ×ₗ Bool) := toLex (r.round, toLex (r.groups, r.isEcho))

theorem RoundId.key_inj : Function.Injective RoundId.key := by
  rintro ⟨a, b, c⟩ ⟨a', b', c'⟩ h
  simp only [RoundId.key, EmbeddingLike.apply_eq_iff_eq, Prod.mk.injEq] at h
  obtain ⟨rfl, rfl, rfl⟩ := h
  rfl

instance : LinearOrder RoundId := LinearOrder.lift' RoundId.key RoundId.key_inj

namespace RoundId

/-- `RoundId::new` (`round_id.rs:38-44`). -/
def new (n : U8) : RoundId := ⟨n, [], false⟩

/-- `RoundId::group_under` (`round_id.rs:55-63`). -/
def groupUnder (r : RoundId) (g : U8) : RoundId := ⟨r.round, r.groups ++ [g], r.isEcho⟩

/-- `RoundId::split_group` (`round_id.rs:69-82`). -/
def splitGroup (r : RoundId) : Except LErr (U8 × RoundId) :=
  match r.groups.getLast? with
  | none => .error .noGroup
  | some g => .ok (g, ⟨r.round, r.groups.dropLast, r.isEcho⟩)

/-- `RoundId::echo` (`round_id.rs:92-102`). -/
def echo (r : RoundId) : Except LErr RoundId :=
  if r.isEcho then .error .echoOfEcho else .ok ⟨r.round, r.groups, true⟩

/-- `RoundId::non_echo` (`round_id.rs:107-117`). -/
def nonEcho (r : RoundId) : Except LErr RoundId :=
  if r.isEcho then .ok ⟨r.round, r.groups, false⟩ else .error .nonEchoOfMain

/-- Decimal digits of a number, as characters; used for `Display` of `u8`. -/
def decimal (n : Nat) : List Char := Nat.toDigits 10 n

/-- `Display for RoundId` (`round_id.rs:22-34`). -/
def display (r : RoundId) : List Char :=
  ['R', 'o', 'u', 'n', 'd', ' ']
    ++ (r.groups.reverse.map (fun g => decimal g.val ++ ['-'])).flatten
    ++ decimal r.round.val
    ++ (if r.isEcho then [' ', '(', 'e', 'c', 'h', 'o', ')'] else [])

end RoundId

/-- `TransitionInfo` (`round_id.rs:140-164`). -/
structure TransitionInfo where
  id : RoundId
  parents : BSet RoundId
  siblings : BSet RoundId
  children : BSet RoundId
  mayProduceResult : Bool

namespace TransitionInfo

/-- Mapping the elements of a set: `into_iter().map(f).collect::<BTreeSet<_>>()`. -/
def mapSet (f : RoundId → RoundId) (s : BSet RoundId) : BSet RoundId := BSet.ofList (s.elems.map f)

/-- `TransitionInfo::group_under` (`round_id.rs:168-176`). -/
def groupUnder (t : TransitionInfo) (g : U8) : TransitionInfo where
  id := t.id.groupUnder g
  parents := mapSet (·.groupUnder g) t.parents
  siblings := mapSet (·.groupUnder g) t.siblings
  children := mapSet (·.groupUnder g) t.children
  mayProduceResult := t.mayProduceResult

/-- `TransitionInfo::simultaneous_rounds` (`round_id.rs:184-193`). -/
def simultaneousRounds (t : TransitionInfo) (followedByEcho : Bool) : Except LErr (BSet RoundId) :=
  match (if followedByEcho then
      match t.id.echo with
      | .ok e => Except.ok (BSet.ofList [e])
      | .error e => Except.error e
    else Except.ok t.parents : Except LErr (BSet RoundId)) with
  | .error e => .error e
  | .ok base => .ok (BSet.extend (BSet.extend base t.siblings.elems) t.children.elems)

/-- `TransitionInfo::echo` (`round_id.rs:200-208`). -/
def echo (t : TransitionInfo) : Except LErr TransitionInfo :=
  match t.id.echo with
  | .error e => .error e
  | .ok e => .ok
    { id := e, parents := BSet.ofList [t.id], siblings := BMap.empty, children := t.children,
      mayProduceResult := t.mayProduceResult }

/-- The parents used by both linear constructors (`round_id.rs:218-222, 237-241`). -/
def linearParents (n : U8) : BSet RoundId :=
  if 1 < n.val then BSet.ofList [RoundId.new (n - 1)] else BMap.empty

/-- `TransitionInfo::new_linear` (`round_id.rs:215-227`); `round_num + 1` panics on overflow in debug builds. -/
def newLinear (n : U8) : Except LErr TransitionInfo :=
  if n.val = 255 then .error .panicOverflow
  else .ok
    { id := RoundId.new n, parents := linearParents n, siblings := BMap.empty,
      children := BSet.ofList [RoundId.new (n + 1)], mayProduceResult := false }

/-- `TransitionInfo::new_linear_terminating` (`round_id.rs:234-246`). -/
def newLinearTerminating (n : U8) : TransitionInfo where
  id := RoundId.new n
  parents := linearParents n
  siblings := BMap.empty
  children := BMap.empty
  mayProduceResult := true

/-- `TransitionInfo::with_children` (`round_id.rs:249-259`). -/
def withChildren (t : TransitionInfo) (ns : BSet U8) : TransitionInfo :=
  { t with children := BSet.extend t.children (ns.elems.map RoundId.new) }

/-- `TransitionInfo::with_siblings` (`round_id.rs:262-272`). -/
def withSiblings (t : TransitionInfo) (ns : BSet U8) : TransitionInfo :=
  { t with siblings := BSet.extend t.siblings (ns.elems.map RoundId.new) }

end TransitionInfo

end Manul
