import Verif.Spec.Equivocation

/-!
# Specification: how a party following the protocol can be accused
-/

namespace Manul

variable {sp : SP} {P : Proto sp}

/-- The signed hash is not forged: if it verifies under the key of a party in `H` for this session, it is the hash of a part this
party has sent, of any kind. -/
def HashUnforged (H : sp.Id → Prop) (sid : Bytes) (sent : List (Packet sp)) (h : SignedHash) : Prop :=
  ∀ k, H k → HashSigned k h → h.metadata.sessionId = sid → ∃ q ∈ sent, q.src = k ∧
    ((q.message.echo.metadata = h.metadata ∧ sp.partHash q.message.echo.part = h.hash) ∨
      (q.message.normal.metadata = h.metadata ∧ sp.partHash q.message.normal.part = h.hash) ∨
      (q.message.direct.metadata = h.metadata ∧ sp.partHash q.message.direct.part = h.hash))

/-- The same if signatures told the kind of what was signed (they do not): the hash is that of an echo broadcast. -/
def EchoHashUnforged (H : sp.Id → Prop) (sid : Bytes) (sent : List (Packet sp)) (h : SignedHash) : Prop :=
  ∀ k, H k → HashSigned k h → h.metadata.sessionId = sid → ∃ q ∈ sent, q.src = k ∧
    q.message.echo.metadata = h.metadata ∧ sp.partHash q.message.echo.part = h.hash

/-- The evidence has the echo broadcast `k` has really made in some round beside a hash signed by `k` for the same round that is
another one. -/
def Misquoted (g : Group P) (k : sp.Id) (s : Session P) (h : SignedHash) (ev : Evidence sp) : Prop :=
  ∃ w : SignedPart .echo, VisitedBy g k s ∧ ev = ⟨k, .mismatched k w h⟩ ∧ w.part = s.echo.part ∧
    w.metadata = ⟨g.sid, s.transition.id⟩ ∧ HashSigned k h ∧ h.metadata = ⟨g.sid, s.transition.id⟩ ∧
    h.hash ≠ sp.partHash s.echo.part

end Manul
