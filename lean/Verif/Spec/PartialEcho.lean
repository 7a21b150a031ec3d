import Verif.Model.PartialEcho
import Verif.Spec.Scheme

/-! # Specification of the protocol of the test `partial_echo` -/

namespace Manul

/-- Senders are serialized and deserialized to themselves. -/
def SenderFormat.Lawful {sp : SP} (fmt : SenderFormat sp) : Prop := ∀ i, ∃ b, fmt.ser i = .ok b ∧ fmt.de b = some i

namespace PartialInputs

variable {Id : Type} [LinearOrder Id] (x : PartialInputs Id)

/-- Whether the party has an echo round. -/
def runsEcho : Bool :=
  match x.participation with
  | .default => !x.destinations.isEmpty
  | .send => false
  | .receive _ => true

/-- Whom the party exchanges echo messages with. -/
def peers : BSet Id :=
  match x.participation with
  | .default => x.destinations
  | .send => BMap.empty
  | .receive ts => ts

/-- Whose broadcasts the party reports: its own, unless it only receives, and those it has received. -/
def reported (j : Id) : Bool :=
  match x.participation with
  | .receive _ => x.expecting.contains j
  | _ => decide (j = x.id) || x.expecting.contains j

end PartialInputs

/-- The inputs of the parties fit together: parties expect the messages sent to them, and those who exchange echo messages have
received broadcasts of the same parties. -/
structure InputsMatch {Id : Type} [LinearOrder Id] (ids : BSet Id) (inp : Id → PartialInputs Id) : Prop where
  own : ∀ i, ids.contains i = true → (inp i).id = i
  matched : ∀ i j, ids.contains i = true → ids.contains j = true →
    (inp i).destinations.contains j = (inp j).expecting.contains i
  dests : ∀ i j, ids.contains i = true → (inp i).destinations.contains j = true → ids.contains j = true ∧ j ≠ i
  expects : ∀ i j, ids.contains i = true → (inp i).expecting.contains j = true → ids.contains j = true ∧ j ≠ i
  peers : ∀ i j, ids.contains i = true → (inp i).runsEcho = true → (inp i).peers.contains j = true →
    (ids.contains j = true ∧ j ≠ i) ∧ (inp j).runsEcho = true ∧ (inp j).peers.contains i = true
  compared : ∀ i j, ids.contains i = true → (inp i).runsEcho = true → (inp i).peers.contains j = true →
    ∀ x, (inp j).expecting.contains x = ((inp i).reported x && !decide (x = j))

/-- All parties execute the protocol with their inputs. -/
def partialGroup (sp : SP) (fmt : SenderFormat sp) (ids : BSet sp.Id) (inp : sp.Id → PartialInputs sp.Id)
    (signer : sp.Id → sp.Signer) (sid : Bytes) : Group (partialEcho sp fmt).wrap where
  parties := ids
  signer := signer
  ep i := partialEntry sp fmt (inp i)
  sid := sid

/-- The scheme of the execution: one stage. -/
def partialScheme (sp : SP) (fmt : SenderFormat sp) (ids : BSet sp.Id) (inp : sp.Id → PartialInputs sp.Id)
    (signer : sp.Id → sp.Signer) (sid : Bytes) : Scheme (partialEcho sp fmt).wrap where
  g := partialGroup sp fmt ids inp signer sid
  rid _ := RoundId.new 1
  echoAt _ := true
  n := 1
  dests _ i := (inp i).destinations
  expects _ i := (inp i).expecting
  part _ i := (inp i).participation

end Manul
