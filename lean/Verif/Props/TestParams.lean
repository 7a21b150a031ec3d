import Verif.Spec.TestParams
import Verif.Spec.Auth
import Verif.Lemmas.TestParams
import Verif.Lemmas.EvidenceCheck
import Mathlib.Data.List.Induction

/-!
# The session parameters for tests (C52)

The operations of `TestSessionParams<BinaryFormat>` work as the session requires; they provide no security.
-/

namespace Manul

open TestHasher

theorem columnXor_snoc (j : Nat) (data : Bytes) (b : U8) :
    columnXor j (data ++ [b]) = if data.length % 32 = j then columnXor j data ^^^ b.val else columnXor j data := by
  unfold columnXor
  rw [List.zipIdx_append, List.filter_append]
  simp only [Nat.zero_add, List.zipIdx_singleton, List.filter_cons, List.filter_nil]
  split <;> simp_all

theorem columnXor_lt (j : Nat) (data : Bytes) : columnXor j data < 256 := by
  induction data using List.reverseRecOn with
  | nil => simp [columnXor]
  | append_singleton data b ih =>
    rw [columnXor_snoc]
    split
    · exact Nat.xor_lt_two_pow (n := 8) ih b.isLt
    · exact ih

theorem digest_state (data : Bytes) :
    new.update data = ⟨data.length % 32, (List.range 32).map (fun j => Fin.ofNat 256 (columnXor j data))⟩ := by
  induction data using List.reverseRecOn with
  | nil => decide +kernel
  | append_singleton data b ih =>
    unfold update at ih ⊢
    rw [List.foldl_append, ih]
    simp only [List.foldl_cons, List.foldl_nil, absorb, List.length_map, List.length_range, List.length_append,
      List.length_singleton, TestHasher.mk.injEq]
    refine ⟨by omega, ?_⟩
    apply List.ext_getElem
    · simp
    · intro j h1 h2
      rw [List.getElem_modify]
      simp only [List.getElem_map, List.getElem_range, columnXor_snoc]
      split
      · apply Fin.ext
        simp only [Fin.ofNat]
        rw [Nat.mod_eq_of_lt (columnXor_lt j data)]
      · rfl

/-- **C52.**  The digest is the exclusive or of the data in 32-byte chunks. -/
theorem C52_digest (data : Bytes) : digest data = (List.range 32).map (fun j => Fin.ofNat 256 (columnXor j data)) := by
  unfold digest finalize
  rw [digest_state]

/-- **C52.**  It has 32 bytes. -/
theorem C52_digest_length (data : Bytes) : (digest data).length = 32 := by
  rw [C52_digest]
  simp

/-- **C52.**  Hashing does not panic: whatever has been hashed, the cursor is within the buffer. -/
theorem C52_in_bounds (data : Bytes) : (new.update data).cursor < (new.update data).buffer.length := by
  rw [digest_state]
  simp only [List.length_map, List.length_range]
  omega

/-- **C52.**  Hashing in pieces is hashing the whole, as `Digest` requires. -/
theorem C52_update_append (h : TestHasher) (a b : Bytes) : (h.update a).update b = h.update (a ++ b) := by
  unfold update
  rw [List.foldl_append]

/-- **C52.**  Whatever random numbers are drawn: signing succeeds, signatures verify under the corresponding key and under no
other one, and everything the session serializes is deserialized to itself. -/
theorem C52_operations (R : RandomSource) :
    (testParams R).EnvOk ∧ (testParams R).SignCorrect ∧ (testParams R).SigRoundTrip ∧ (testParams R).EchoRoundTrip ∧
      (testParams R).MetaPrefixFree :=
  ⟨test_envOk R, test_signCorrect R, test_sigRoundTrip R, test_echoRoundTrip R, test_metaPrefixFree R⟩

/-- **C52.**  A signature verifies under the key of the signer only. -/
theorem C52_other_key (R : RandomSource) {s who : U8} {rng : R.Rng} {d d' : Bytes} {sig : TestSignature}
    (h : (testParams R).sign s rng d = .ok sig) : (testParams R).verify who d' sig = true ↔ who = s := by
  have h' : (Except.ok ⟨s, R.u64 rng⟩ : Except LErr TestSignature) = .ok sig := h
  rw [← Except.ok.inj h']
  exact decide_eq_true_iff

/-- **C52 (limit).**  The hash has collisions: appending a zero byte to data does not change its digest. -/
theorem C52_collision (data : Bytes) : digest (data ++ [0]) = digest data := by
  rw [C52_digest, C52_digest]
  apply List.map_congr_left
  intro j _
  rw [columnXor_snoc]
  split
  · simp
  · rfl

/-- **C52 (limit).**  So the hash is not injective. -/
theorem C52_not_injective (R : RandomSource) : ¬ (testParams R).HashInjective := by
  intro h
  have := h [] [0] (C52_collision []).symm
  simp at this

/-- **C52 (limit).**  Signatures do not bind what is signed: with the signature of any part anything can be attributed to its
signer, in any session and round.  The theorems assuming that honest parties have signed what carries their signatures say
nothing about these parameters. -/
theorem C52_tampering (R : RandomSource) {k k' : PartKind} {who : U8} {q : SignedPart k}
    (h : SigValid (sp := testParams R) who q) (p : Part k') (m : Metadata) :
    SigValid (sp := testParams R) who (⟨q.sig, m, p⟩ : SignedPart k') := by
  obtain ⟨d, sg, -, h2, h3⟩ := h
  exact ⟨_, sg, rfl, h2, h3⟩

/-- **C52 (limit).**  A signature for any key can be made without it. -/
theorem C52_forgery (R : RandomSource) (who : U8) : ∃ sig, ∀ d, (testParams R).verify who d sig = true :=
  ⟨(⟨who, 0⟩ : TestSignature), fun _ => decide_eq_true rfl⟩

/-! ### Examples -/

example : (digest ((List.range 40).map (Fin.ofNat 256))).take 10 = [0 ^^^ 32, 1 ^^^ 33, 2 ^^^ 34, 3 ^^^ 35, 4 ^^^ 36, 5 ^^^ 37, 6 ^^^ 38, 7 ^^^ 39, 8, 9] := by
  decide +kernel

end Manul
