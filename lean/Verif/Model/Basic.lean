import Verif.Model.BMap
import Mathlib.Data.Prod.Lex
import Mathlib.Data.List.Lex
import Mathlib.Order.Fin.Basic

/-!
# Bytes and errors

Basic vocabulary of the model.
-/

namespace Manul

/-- Rust's `u8` (used for bytes, `RoundNum` and `GroupNum`, `/repo/manul/src/protocol/round_id.rs:10-12`). -/
abbrev U8 := Fin 256

/-- Rust's `Box<[u8]>` / `Vec<u8>` / `&[u8]`. -/
abbrev Bytes := List U8

/-- `LocalError` (`/repo/manul/src/protocol/errors.rs`), one constructor per raising site, without the
formatted text.  The constructors under "panics" stand for `panic!`/`expect`/arithmetic overflow sites. -/
inductive LErr where
  /-- any error returned by user code (round methods, entry points) -/
  | user (code : Nat)
  /-- `session/message.rs:150-152` -/
  | signFailed
  /-- `WireFormat::serialize` failure -/
  | serialize
  /-- `round_id.rs:94` -/
  | echoOfEcho
  /-- `round_id.rs:109` -/
  | nonEchoOfMain
  /-- `round_id.rs:71` -/
  | noGroup
  /-- `chain.rs:92` -/
  | wrongGroup
  /-- `session.rs:623` -/
  | dupUnprovable
  /-- `session.rs:633` -/
  | dupProvable
  /-- `session.rs:643` -/
  | dupProcessing
  /-- `session.rs:660` -/
  | dupArtifact
  /-- `session.rs:675` -/
  | dupPayload
  /-- `session.rs:684` -/
  | unexpectedSender
  /-- `session.rs:754` -/
  | dupCached
  /-- `transcript.rs:62` -/
  | transcriptEcho
  /-- `transcript.rs:72` -/
  | transcriptNormal
  /-- `transcript.rs:82` -/
  | transcriptDirect
  /-- `transcript.rs:91` -/
  | transcriptProvable
  /-- `transcript.rs:100` -/
  | transcriptUnprovable
  /-- `transcript.rs:114` -/
  | transcriptMissing
  /-- `transcript.rs:137-192`: lookups of absent entries -/
  | noEntry
  /-- `session.rs:514` -/
  | unexpectedNextRound
  /-- `echo.rs:257` -/
  | ownEchoMissing
  /-- `dyn_round.rs:270,280` -/
  | dynamicAsTyped
  /-- `dyn_round.rs:42,62`: failed downcast of a payload or an artifact -/
  | downcast
  /-- `round.rs:154-217`: a message method is not implemented -/
  | notImplemented
  /-- `tokio.rs:143`: the incoming channel was closed -/
  | channelClosed
  /-- panic: `echo.rs:321` ("the key is present by construction") -/
  | panicEchoKey
  /-- panic: `echo.rs:220` ("the main round is not an echo round") -/
  | panicMainIsEcho
  /-- panic: `debug_assert!` (debug builds) at `protocol/evidence.rs:290` -/
  | panicAssert
  /-- panic: arithmetic overflow (debug builds) at `round_id.rs:224`, `examples/src/simple.rs:252,338,340` -/
  | panicOverflow
  /-- panic: `run_sync.rs:69,83`: `gen_range` over an empty range -/
  | panicEmptyRange
  /-- panic: `run_sync.rs:231`: message to a node without a session -/
  | panicNoSession
  /-- panic: `extend.rs:319` -/
  | panicExtension
  /-- panic: indexing a map or a vector with an absent key (`examples/src/simple.rs`, `dining_cryptographers.rs`) -/
  | panicIndex
  /-- panic: the methods of `NoProtocolErrors` (`protocol/evidence.rs:261-276`) -/
  | panicNoErrors
deriving DecidableEq, Repr

/-- The error value stands for a Rust panic. -/
def LErr.isPanic : LErr → Bool
  | .panicEchoKey | .panicMainIsEcho | .panicOverflow | .panicEmptyRange | .panicNoSession
  | .panicExtension | .panicAssert | .panicIndex | .panicNoErrors => true
  | _ => false

/-- `RemoteError` (`/repo/manul/src/protocol/errors.rs`): the reason instead of the formatted text. -/
inductive RErr where
  /-- `session.rs:310` -/
  | banned
  /-- `session.rs:316` -/
  | metadata
  /-- `session.rs:325` -/
  | session
  /-- `session.rs:342` -/
  | alreadyProcessing
  /-- `session.rs:350` -/
  | alreadyCached
  /-- `session.rs:357` -/
  | unexpectedRound
  /-- `session.rs:368` -/
  | badSignature
  /-- `session.rs:374` -/
  | sigMismatch
  /-- `echo.rs:298` -/
  | missingEchos
  /-- `echo.rs:305` -/
  | extraEchos
  /-- returned by user code from `receive_message` -/
  | user (code : Nat)
deriving DecidableEq, Repr

/-- `EvidenceError` (`/repo/manul/src/protocol/evidence.rs:386-395`), text dropped. -/
inductive EvErr where
  | local (e : LErr)
  | invalid
deriving DecidableEq, Repr

instance {ε α : Type} [DecidableEq ε] [DecidableEq α] : DecidableEq (Except ε α) := fun a b =>
  match a, b with
  | .ok x, .ok y => if h : x = y then isTrue (h ▸ rfl) else isFalse (fun e => h (Except.ok.inj e))
  | .error x, .error y =>
    if h : x = y then isTrue (h ▸ rfl) else isFalse (fun e => h (Except.error.inj e))
  | .ok _, .error _ => isFalse (fun e => by cases e)
  | .error _, .ok _ => isFalse (fun e => by cases e)

/-- `Result::map_err`. -/
def mapErr {ε ε' α : Type} (f : ε → ε') : Except ε α → Except ε' α
  | .ok a => .ok a
  | .error e => .error (f e)

/-- `Option::ok_or`. -/
def okOr {ε α : Type} (e : ε) : Option α → Except ε α
  | some a => .ok a
  | none => .error e

/-- Sequential loop with early exit on an error: `for x in l { s = f(s, x)?; }`. -/
def foldE {ε σ α : Type} (f : σ → α → Except ε σ) : σ → List α → Except ε σ
  | s, [] => .ok s
  | s, x :: l =>
    match f s x with
    | .ok s' => foldE f s' l
    | .error e => .error e

/-- `iter().map(f).collect::<Result<Vec<_>, _>>()`. -/
def mapE {ε α β : Type} (f : α → Except ε β) : List α → Except ε (List β)
  | [] => .ok []
  | x :: l =>
    match f x with
    | .error e => .error e
    | .ok y =>
      match mapE f l with
      | .error e => .error e
      | .ok ys => .ok (y :: ys)

end Manul
