import Verif.Model.TestParams

/-! # Specification of the hasher for tests -/

namespace Manul

/-- The exclusive or of the bytes at the positions `j`, `j + 32`, `j + 64`, … -/
def columnXor (j : Nat) (data : Bytes) : Nat :=
  ((data.zipIdx.filter (fun e => decide (e.2 % 32 = j))).map (fun e => e.1.val)).foldl (· ^^^ ·) 0

end Manul
