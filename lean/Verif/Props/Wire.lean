import Verif.Lemmas.Wire
import Verif.Lemmas.TestParams
import Verif.Spec.Auth

/-!
# C74: Messages and evidence survive being sent as bytes
-/

namespace Manul

open Codec

variable {sp : SP} {id : Codec sp.Id}

/-- C74: what is written is read back; reading looks only at the beginning of the input; and no shorter input is read as the same
value.  For messages. -/
theorem C74_message (hid : id.Exact) : (message id).Exact := message_exact hid

/-- C74: the same for evidence. -/
theorem C74_evidence (hid : id.Exact) : (evidence id).Exact := evidence_exact hid

/-- C74: different messages, and a message and the beginning of another one, have different encodings. -/
theorem C74_message_injective (hid : id.Exact) {m m' : Message sp} {r r' : Bytes}
    (h : (message id).enc m ++ r = (message id).enc m' ++ r') : m = m' ∧ r = r' :=
  Lawful.cancel (message_exact hid).trip h

/-- C74: the same for evidence. -/
theorem C74_evidence_injective (hid : id.Exact) {d d' : DEvidence sp} {r r' : Bytes}
    (h : (evidence id).enc d ++ r = (evidence id).enc d' ++ r') : d = d' ∧ r = r' :=
  Lawful.cancel (evidence_exact hid).trip h

/-- C74: who reads evidence from bytes comes to the same conclusion as who has made it. -/
theorem C74_verdict {P : Proto sp} (hid : id.Exact) (shared : P.Shared) (d : DEvidence sp) (rest : Bytes) :
    ((evidence id).read ((evidence id).enc d ++ rest)).map (fun e => (e.guilty, e.description, e.verify P shared)) =
      some (d.guilty, d.description, d.verify P shared) := by
  simp only [Codec.read, (evidence_exact hid).trip, Option.map_some]

/-- C74: a map is read from its pairs in any order, and from no others. -/
theorem C74_map {K V : Type} [LinearOrder K] {c : Codec K} {d : Codec V} (hc : c.Exact) (hd : d.Exact) (l : List (K × V))
    (m : BMap K V) (rest : Bytes) :
    (Codec.map c d).dec ((list (prod c d)).enc l ++ rest) = some (m, rest) ↔ l.Perm m.toList := by
  simp only [Codec.map, (list_exact (prod_exact hc hd)).trip]
  constructor
  · intro h
    split at h
    · simp at h
    · rename_i m' hm
      simp only [Option.some.injEq, Prod.mk.injEq, and_true] at h
      subst h
      exact collectUnique_perm hm
  · intro h
    rw [C32_order_irrelevant l m.toList h, C32_round_trip]

/-- C74: duplicate keys are refused. -/
theorem C74_duplicates {K V : Type} [LinearOrder K] {c : Codec K} {d : Codec V} (hc : c.Exact) (hd : d.Exact) (l : List (K × V))
    (rest : Bytes) (h : ¬ (l.map Prod.fst).Nodup) : (Codec.map c d).dec ((list (prod c d)).enc l ++ rest) = none := by
  simp only [Codec.map, (list_exact (prod_exact hc hd)).trip]
  rw [← C32_accepts_iff_distinct] at h
  cases hu : collectUnique (BMap.empty : BMap K V) l with
  | none => rfl
  | some m => rw [hu] at h; simp at h

/-- C74: what is refused besides what ends too early: other marks of optional values, other variants of evidence, and texts that are
not UTF-8. -/
theorem C74_refuses (rest : Bytes) :
    (∀ {α : Type} (c : Codec α) (b : U8), b ≠ 0 → b ≠ 1 → (Codec.option c).dec (b :: rest) = none) ∧
      (∀ n, 6 ≤ n → (evBody id).dec (varint.enc n ++ rest) = none) ∧
      ∀ x, unUtf8 x = none → text.dec (bytes.enc x ++ rest) = none := by
  refine ⟨?_, ?_, ?_⟩
  · intro α c b h0 h1
    simp [Codec.option, h0, h1]
  · intro n hn
    simp only [evBody, varint_exact.trip n rest]
    split <;> first | omega | rfl
  · intro x hx
    simp only [text, bytes_exact.trip x rest, hx]

example : unUtf8 [255] = none := by decide +kernel

/-! ## Encodings are not unique -/

/-- C74: every message has other encodings: whatever follows is ignored. -/
theorem C74_trailing_violation (hid : id.Exact) (m : Message sp) (rest : Bytes) (hr : rest ≠ []) :
    (message id).enc m ++ rest ≠ (message id).enc m ∧ (message id).read ((message id).enc m ++ rest) = some m := by
  refine ⟨fun h => hr (by simpa using h), ?_⟩
  simp only [Codec.read, (message_exact hid).trip, Option.map_some]

/-- C74: the same for evidence. -/
theorem C74_evidence_trailing_violation (hid : id.Exact) (d : DEvidence sp) (rest : Bytes) (hr : rest ≠ []) :
    (evidence id).enc d ++ rest ≠ (evidence id).enc d ∧ (evidence id).read ((evidence id).enc d ++ rest) = some d := by
  refine ⟨fun h => hr (by simpa using h), ?_⟩
  simp only [Codec.read, (evidence_exact hid).trip, Option.map_some]

/-- C74: even if nothing follows: lengths can be written with more bytes than needed. -/
theorem C74_padded_violation {x : Bytes} (h : x.length < 128) (rest : Bytes) :
    bytes.dec (⟨x.length + 128, by omega⟩ :: 0 :: x ++ rest) = some (x, rest) ∧ bytes.enc x = ⟨x.length, by omega⟩ :: x := by
  have key : ∀ y : Bytes, (y.map u8.enc).flatten = y := by
    intro y
    induction y with
    | nil => rfl
    | cons a y ih => simp only [List.map_cons, List.flatten_cons, ih]; rfl
  constructor
  · have h1 := decN_lawful u8_lawful x rest
    rw [key] at h1
    have h2 : unleb ((⟨x.length + 128, by omega⟩ : U8) :: 0 :: (x ++ rest)) = some (x.length, x ++ rest) := by
      have : ¬ (x.length + 128 < 128) := by omega
      simp [unleb]
    simp only [bytes, Codec.list, varint, List.cons_append, h2, h1]
  · simp only [bytes, Codec.list, varint, key]
    have hleb : ∀ n (hn : n < 128), leb n n = [⟨n, by omega⟩] := by
      intro n hn
      cases n with
      | zero => rfl
      | succ n => simp [leb, hn]
    rw [hleb _ h]
    rfl

/-- C74: nor is the signature of a part unique: anybody can add something to the bytes of a signature, and it still verifies. -/
theorem C74_signature_violation (R : RandomSource) {k : PartKind} (x : U8) (p : SignedPart k) (junk : Bytes)
    (h : SigValid (sp := testParams R) x p) : SigValid (sp := testParams R) x { p with sig := p.sig ++ junk } := by
  obtain ⟨d, sig, h1, h2, h3⟩ := h
  refine ⟨d, sig, h1, ?_, h3⟩
  have hex : Codec.testSignature.Exact := iso_exact (prod_exact u8_exact varint_exact) (fun _ => rfl) (fun _ => rfl)
  simp only [testParams] at h2 ⊢
  split at h2
  · simp at h2
  · rename_i s rest hs
    obtain ⟨u, hu, h4, -⟩ := hex.reads _ _ _ hs
    rw [hu, List.append_assoc, h4]
    exact h2

/-! ## Examples -/

/-- The hypotheses on the encoding of identifiers are met by that of the test parameters. -/
example (R : RandomSource) : ∃ id : Codec (testParams R).Id, id.Exact := ⟨u8, u8_exact⟩

/-- A message. -/
def wireMessage : Message toy :=
  ⟨(2 : U8), ⟨[1, 2], ⟨[9], RoundId.new 1⟩, ⟨some [5]⟩⟩, ⟨[3], ⟨[9], RoundId.new 1⟩, ⟨none⟩⟩, ⟨[4], ⟨[9], RoundId.new 1⟩, ⟨some []⟩⟩⟩

/-- It is read from its bytes and from others. -/
example : ((message (sp := toy) u8).enc wireMessage =
      [2, 2, 1, 2, 1, 9, 1, 0, 0, 1, 1, 5, 1, 3, 1, 9, 1, 0, 0, 0, 1, 4, 1, 9, 1, 0, 0, 1, 0]) ∧
    ((message (sp := toy) u8).read [2, 130, 0, 1, 2, 1, 9, 1, 0, 0, 1, 1, 5, 1, 3, 1, 9, 1, 0, 0, 0, 1, 4, 1, 9, 1, 0, 0, 1, 0, 77]).isSome =
      true := by
  constructor <;> decide +kernel

/-- Texts are written in UTF-8. -/
example : Codec.text.enc ['h', 'é', '€', '😀'] = [10, 104, 195, 169, 226, 130, 172, 240, 159, 152, 128] := by
  decide +kernel

/-- Signatures of the test parameters verify. -/
example (R : RandomSource) (r : R.Rng) : ∃ p : SignedPart .normal, SigValid (sp := testParams R) (3 : U8) p := by
  refine ⟨⟨Codec.testSignature.enc ⟨3, R.u64 r⟩, ⟨[9], RoundId.new 1⟩, ⟨none⟩⟩, _, ⟨3, R.u64 r⟩, rfl, ?_, rfl⟩
  have := testSignature_lawful ⟨3, R.u64 r⟩ []
  rw [List.append_nil] at this
  simp only [testParams, this]

/-- Duplicate keys. -/
example : ¬ (([(1, 2), (1, 3)] : List (U8 × U8)).map Prod.fst).Nodup := by decide

end Manul
