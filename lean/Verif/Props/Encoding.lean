import Verif.Spec.Assumptions
import Verif.Lemmas.BMap
import Verif.Lemmas.Toy
import Mathlib.Data.List.Perm.Basic

/-!
# C31, C32: hash preimages and the map encoding
-/

namespace Manul

theorem be64_length (n : Nat) : (be64 n).length = 8 := by simp [be64]

/-- The bytes absorbed for a part determine its kind and its payload (`none` and an empty payload differ). -/
theorem C31_part_preimage_injective {k k' : PartKind} (p : Part k) (p' : Part k')
    (h : p.preimage = p'.preimage) : k = k' ∧ p.payload = p'.payload := by
  obtain ⟨p⟩ := p
  obtain ⟨p'⟩ := p'
  simp only [Part.preimage, List.append_assoc, List.append_cancel_left_eq] at h
  simp only [List.cons_append, List.nil_append, List.cons.injEq] at h
  refine ⟨?_, ?_⟩
  · revert h
    cases k <;> cases k' <;> simp [kindByte]
  · have h2 := h.2
    cases p with
    | none => cases p' with
      | none => rfl
      | some b => simp at h2
    | some a => cases p' with
      | none => simp at h2
      | some b =>
        simp only [List.cons.injEq, true_and] at h2
        have := List.append_inj h2 (by simp [be64_length])
        simp [this.2]

/-- Distinct parts, or parts of distinct kinds, have distinct hashes if the hash has no collision on their preimages. -/
theorem C31_part_hash_injective (sp : SP) {k k' : PartKind} (p : Part k) (p' : Part k')
    (nocoll : sp.hash p.preimage = sp.hash p'.preimage → p.preimage = p'.preimage)
    (h : sp.partHash p = sp.partHash p') : k = k' ∧ p.payload = p'.payload :=
  C31_part_preimage_injective p p' (nocoll h)

/-- With a prefix-free encoding of metadata, the signed bytes determine the metadata and the part hash, whatever the
length of the hashes. -/
theorem C31_digest_injective (sp : SP) (pf : sp.MetaPrefixFree) (m m' : Metadata) (h h' d : Bytes)
    (e : sp.messageDigest m h = .ok d) (e' : sp.messageDigest m' h' = .ok d) : m = m' ∧ h = h' := by
  unfold SP.messageDigest at e e'
  split at e
  · cases e
  · rename_i b hb
    split at e'
    · cases e'
    · rename_i b' hb'
      cases e
      simp only [Except.ok.injEq, List.append_assoc, List.append_cancel_left_eq] at e'
      obtain ⟨rfl, h2⟩ := pf m' m b' b _ _ hb' hb e'
      have := List.append_inj h2 (by simp [be64_length])
      exact ⟨rfl, this.2.symm⟩

/-- For a fixed-length hash an injective encoding of metadata is enough. -/
theorem C31_digest_injective_fixed_length (sp : SP) (inj : sp.MetaInjective) (m m' : Metadata) (h h' d : Bytes)
    (len : h.length = h'.length)
    (e : sp.messageDigest m h = .ok d) (e' : sp.messageDigest m' h' = .ok d) : m = m' ∧ h = h' := by
  unfold SP.messageDigest at e e'
  split at e
  · cases e
  · rename_i b hb
    split at e'
    · cases e'
    · rename_i b' hb'
      cases e
      simp only [Except.ok.injEq, List.append_assoc, List.append_cancel_left_eq] at e'
      have hl := congrArg List.length e'
      simp only [List.length_append, be64_length] at hl
      have := List.append_inj e' (by omega)
      obtain ⟨rfl, h2⟩ := this
      have := List.append_inj h2 (by simp [be64_length])
      exact ⟨inj _ _ _ hb hb', this.2.symm⟩

/-- The three kinds of hashed byte strings (part, signed digest, session id seed) never coincide. -/
theorem C31_domains_separated {k : PartKind} (sp : SP) (p : Part k) (m : Metadata) (h d seed : Bytes)
    (hd : sp.messageDigest m h = .ok d) :
    p.preimage ≠ d ∧ p.preimage ≠ prefixSessionId ++ seed ∧ d ≠ prefixSessionId ++ seed := by
  unfold SP.messageDigest at hd
  split at hd
  · cases hd
  · cases hd
    refine ⟨?_, ?_, ?_⟩ <;> simp [Part.preimage, prefixPart, prefixDigest, prefixSessionId]

/-- The bytes of an ASCII string. -/
def ascii (s : String) : List Nat := s.toList.map Char.toNat

/-- `L` is the length field of `n`: eight bytes, the most significant first. -/
def IsLengthField (L : Bytes) (n : Nat) : Prop :=
  L.length = 8 ∧ L.foldl (fun acc b => 256 * acc + b.val) 0 = n

theorem be64_field (n : Nat) (h : n < 2 ^ 64) : IsLengthField (be64 n) n := by
  refine ⟨be64_length n, ?_⟩
  simp only [be64, List.map_cons, List.map_nil, List.foldl_cons, List.foldl_nil]
  omega

/-- Exactly what is hashed for a part: the tag, the kind byte, and the absent or present payload, the latter after its length.
Peers that write anything else could not verify each other's signatures, even if what they write is injective. -/
theorem C31_part_layout {k : PartKind} (p : Part k) (h : ∀ b, p.payload = some b → b.length < 2 ^ 64) :
    ∃ L tail, p.preimage.map (·.val) =
        ascii "ProtocolMessagePart" ++ [match k with | .echo => 0 | .normal => 1 | .direct => 2] ++ tail ∧
      (p.payload = none → tail = [0]) ∧
      (∀ b, p.payload = some b → IsLengthField L b.length ∧ tail = 1 :: (L ++ b).map (·.val)) := by
  have ht : prefixPart.map (·.val) = ascii "ProtocolMessagePart" := by decide
  obtain ⟨payload⟩ := p
  cases payload with
  | none =>
    refine ⟨[], [0], ?_, fun _ => rfl, fun b e => by simp at e⟩
    simp only [Part.preimage, List.map_append, ht]
    cases k <;> rfl
  | some b =>
    refine ⟨be64 b.length, 1 :: (be64 b.length ++ b).map (·.val), ?_, fun e => by simp at e, fun b' e => ?_⟩
    · simp only [Part.preimage, List.map_append, ht]
      cases k <;> simp [kindByte]
    · simp only [Option.some.injEq] at e
      subst e
      exact ⟨be64_field _ (h _ rfl), rfl⟩

/-- Exactly what is signed: the tag, the metadata, the length of the hash of the part, and that hash. -/
theorem C31_digest_layout (sp : SP) (m : Metadata) (h d : Bytes) (hl : h.length < 2 ^ 64) (e : sp.messageDigest m h = .ok d) :
    ∃ b L, sp.serMeta m = .ok b ∧ IsLengthField L h.length ∧
      d.map (·.val) = ascii "SignedMessagePartDigest" ++ (b ++ L ++ h).map (·.val) := by
  have ht : prefixDigest.map (·.val) = ascii "SignedMessagePartDigest" := by decide
  unfold SP.messageDigest at e
  split at e
  · cases e
  · rename_i b hb
    cases e
    exact ⟨b, be64 h.length, hb, be64_field _ hl, by simp [← ht]⟩

/-- Exactly what is hashed for a session id made from a seed: the tag and the seed. -/
theorem C31_session_id_layout (sp : SP) (seed : Bytes) :
    ∃ pre : Bytes, sp.sessionIdFromSeed seed = sp.hash pre ∧ pre.map (·.val) = ascii "SessionId" ++ seed.map (·.val) := by
  have ht : prefixSessionId.map (·.val) = ascii "SessionId" := by decide
  exact ⟨prefixSessionId ++ seed, rfl, by simp [← ht]⟩

/-- A present payload of two bytes meets the hypothesis, and so does a hash of one byte that gets signed. -/
example : (∀ b, (⟨some [1, 2]⟩ : Part .direct).payload = some b → b.length < 2 ^ 64) ∧
    ∃ d, toy.messageDigest ⟨[1], RoundId.new 1⟩ [7] = .ok d :=
  ⟨fun b e => by cases e; decide, _, rfl⟩

/-- With a hash function without collisions, session ids from different seeds differ, and they are neither hashes of parts nor of
signed digests. -/
theorem C31_session_id {k : PartKind} (sp : SP) (inj : Function.Injective sp.hash) (p : Part k) (m : Metadata) (h d seed seed' : Bytes)
    (hd : sp.messageDigest m h = .ok d) :
    (sp.sessionIdFromSeed seed = sp.sessionIdFromSeed seed' → seed = seed') ∧ sp.sessionIdFromSeed seed ≠ sp.partHash p ∧
      sp.sessionIdFromSeed seed ≠ sp.hash d := by
  obtain ⟨-, h2, h3⟩ := C31_domains_separated sp p m h d seed hd
  refine ⟨fun e => List.append_cancel_left (inj e), fun e => h2 (inj e).symm, fun e => h3 (inj e).symm⟩

/-- The ideal parameters hash to the preimage itself. -/
example : Function.Injective toy.hash ∧ ∃ d, toy.messageDigest ⟨[1], RoundId.new 1⟩ [7] = .ok d := ⟨fun _ _ h => h, _, rfl⟩

/-- Two distinct kinds with the same payload bytes have different preimages; `none` differs from the empty payload. -/
example : (⟨some [1, 2]⟩ : Part .echo).preimage ≠ (⟨some [1, 2]⟩ : Part .normal).preimage ∧
    (⟨none⟩ : Part .echo).preimage ≠ (⟨some []⟩ : Part .echo).preimage := by decide

/-- The hypotheses of `C31_digest_injective` are met by the concrete instance. -/
example : ∃ d, toy.messageDigest ⟨[1], ⟨3, [2], true⟩⟩ [7, 8] = .ok d ∧ toy.MetaPrefixFree ∧ toy.MetaInjective :=
  ⟨_, rfl, toy_metaPrefixFree, toy_metaInjective⟩

/-! ## C32 -/

theorem collectUnique_spec {K V : Type} [LinearOrder K] (l : List (K × V)) (m : BMap K V) :
    (collectUnique m l).isSome ↔ (l.map Prod.fst).Nodup ∧ ∀ e ∈ l, m.contains e.1 = false := by
  induction l generalizing m with
  | nil => simp [collectUnique]
  | cons e l ih =>
    obtain ⟨k, v⟩ := e
    unfold collectUnique
    by_cases h : m.contains k = true
    · simp [h]
    · simp only [h, if_false, Bool.false_eq_true, ih, List.map_cons, List.nodup_cons, List.mem_cons, forall_eq_or_imp,
        BMap.contains_insert]
      have hk : m.contains k = false := by simpa using h
      constructor
      · rintro ⟨h1, h2⟩
        refine ⟨⟨?_, h1⟩, trivial, ?_⟩
        · intro hmem
          obtain ⟨e, he, rfl⟩ := List.mem_map.1 hmem
          have := h2 e he
          simp at this
        · intro e he
          have := h2 e he
          simp at this
          exact this.2
      · rintro ⟨⟨h1, h2⟩, _, h4⟩
        refine ⟨h2, ?_⟩
        intro e he
        have hne : e.1 ≠ k := fun hc => h1 (List.mem_map.2 ⟨e, he, hc⟩)
        simp [hne, h4 e he]

theorem collectUnique_get {K V : Type} [LinearOrder K] (l : List (K × V)) (m r : BMap K V)
    (h : collectUnique m l = some r) (k : K) (v : V) :
    r.get? k = some v ↔ m.get? k = some v ∨ (k, v) ∈ l := by
  induction l generalizing m with
  | nil => simp [collectUnique] at h; subst h; simp
  | cons e l ih =>
    obtain ⟨k', v'⟩ := e
    unfold collectUnique at h
    split at h
    · cases h
    · rename_i hc
      rw [ih _ h, BMap.get?_insert]
      by_cases hk : k = k'
      · subst hk
        have hs := (collectUnique_spec l (m.insert k v')).1 (by rw [h]; rfl)
        have hm : m.get? k = none := by
          have : m.contains k = false := by simpa using hc
          simpa [BMap.contains] using this
        have hn : (k, v) ∉ l := by
          intro hmem
          have := hs.2 _ hmem
          simp [BMap.contains_insert] at this
        simp [hm, hn, eq_comm]
      · simp [hk]

/-- Deserializing a sequence of pairs succeeds exactly if the keys are distinct. -/
theorem C32_accepts_iff_distinct {K V : Type} [LinearOrder K] (l : List (K × V)) :
    (collectUnique BMap.empty l).isSome ↔ (l.map Prod.fst).Nodup := by
  rw [collectUnique_spec]
  simp

/-- The result has exactly the given pairs. -/
theorem C32_exact {K V : Type} [LinearOrder K] (l : List (K × V)) (m : BMap K V)
    (h : collectUnique BMap.empty l = some m) (k : K) (v : V) : m.get? k = some v ↔ (k, v) ∈ l := by
  rw [collectUnique_get l _ m h]
  simp

/-- The order of the pairs does not matter. -/
theorem C32_order_irrelevant {K V : Type} [LinearOrder K] (l l' : List (K × V)) (hp : l.Perm l') :
    collectUnique (BMap.empty : BMap K V) l = collectUnique BMap.empty l' := by
  have hk : (l.map Prod.fst).Nodup ↔ (l'.map Prod.fst).Nodup := (hp.map Prod.fst).nodup_iff
  cases h : collectUnique (BMap.empty : BMap K V) l with
  | none =>
    cases h' : collectUnique (BMap.empty : BMap K V) l' with
    | none => rfl
    | some m' =>
      have := (C32_accepts_iff_distinct l').1 (by rw [h']; rfl)
      rw [← hk, ← C32_accepts_iff_distinct, h] at this
      cases this
  | some m =>
    cases h' : collectUnique (BMap.empty : BMap K V) l' with
    | none =>
      have := (C32_accepts_iff_distinct l).1 (by rw [h]; rfl)
      rw [hk, ← C32_accepts_iff_distinct, h'] at this
      cases this
    | some m' =>
      congr 1
      apply BMap.ext
      intro k
      apply Option.ext
      intro v
      rw [C32_exact l m h, C32_exact l' m' h', hp.mem_iff]

/-- Serializing a map and deserializing the result gives the map back. -/
theorem C32_round_trip {K V : Type} [LinearOrder K] (m : BMap K V) : collectUnique BMap.empty m.toList = some m := by
  have hs : (collectUnique (BMap.empty : BMap K V) m.toList).isSome := by
    rw [C32_accepts_iff_distinct]
    exact BMap.toList_nodupKeys m
  obtain ⟨r, hr⟩ := Option.isSome_iff_exists.1 hs
  rw [hr]
  congr 1
  apply BMap.ext
  intro k
  apply Option.ext
  intro v
  rw [C32_exact _ _ hr, BMap.mem_toList]

/-- The round trip through the wire format, for the echo-round message. -/
theorem C32_echo_message_round_trip (sp : SP) (rt : sp.EchoRoundTrip) (p : EchoPack sp) (b : Bytes)
    (h : sp.serEcho p = .ok b) : sp.deEcho b = some p := by
  unfold SP.deEcho
  rw [rt _ _ h]
  exact C32_round_trip p

example : collectUnique (BMap.empty : BMap U8 Nat) [(3, 1), (1, 2)] = some (BMap.ofList [(1, 2), (3, 1)]) ∧
    collectUnique (BMap.empty : BMap U8 Nat) [(3, 1), (3, 1)] = none := by decide

example : ∃ b, toy.serEcho (BMap.ofList [((1 : U8), ⟨[1], ⟨[2], RoundId.new 1⟩, [3]⟩)]) = .ok b ∧ toy.EchoRoundTrip :=
  ⟨_, rfl, toy_echoRoundTrip⟩

end Manul
