import Verif.Spec.Wire
import Verif.Lemmas.Codec
import Verif.Props.Encoding

/-! # The binary format -/

namespace Manul.Codec

theorem u8_exact : u8.Exact := by
  refine ⟨u8_lawful, ?_⟩
  intro b a rest h
  cases b with
  | nil => simp [u8] at h
  | cons x b =>
    simp only [u8, Option.some.injEq, Prod.mk.injEq] at h
    obtain ⟨rfl, rfl⟩ := h
    exact ⟨[x], rfl, fun r => rfl, le_refl _⟩

theorem bool_exact : bool.Exact := by
  refine ⟨bool_lawful, ?_⟩
  intro b a rest h
  cases b with
  | nil => simp [bool] at h
  | cons x b =>
    refine ⟨[x], ?_, ?_, ?_⟩
    · simp only [bool] at h
      split at h
      · simp at h; rw [← h.2]; rfl
      · split at h
        · simp at h; rw [← h.2]; rfl
        · simp at h
    · intro r
      simp only [bool, List.cons_append, List.nil_append] at h ⊢
      split at h
      · rename_i hx; simp at h; rw [if_pos hx, ← h.1]
      · rename_i hx
        split at h
        · rename_i hy; simp at h; rw [if_neg hx, if_pos hy, ← h.1]
        · simp at h
    · simp [bool]

theorem leb_mono {fuel m k : Nat} (h : m < 128 ^ (k + 1)) : (leb fuel m).length ≤ k + 1 := by
  induction fuel generalizing m k with
  | zero => simp [leb]
  | succ fuel ih =>
    unfold leb
    split
    · simp
    · cases k with
      | zero => simp at h; omega
      | succ k =>
        simp only [List.length_cons, Nat.add_le_add_iff_right]
        refine ih ?_
        rw [Nat.pow_succ] at h
        exact Nat.div_lt_of_lt_mul (by rw [Nat.mul_comm]; exact h)

theorem unleb_reads {b : Bytes} {n : Nat} {rest : Bytes} (h : unleb b = some (n, rest)) :
    ∃ used, b = used ++ rest ∧ (∀ r, unleb (used ++ r) = some (n, r)) ∧ n < 128 ^ used.length ∧ 0 < used.length := by
  induction b generalizing n with
  | nil => simp [unleb] at h
  | cons x b ih =>
    unfold unleb at h
    split at h
    · rename_i hx
      simp only [Option.some.injEq, Prod.mk.injEq] at h
      obtain ⟨rfl, rfl⟩ := h
      exact ⟨[x], rfl, fun r => by simp [unleb, hx], by simpa using hx, by simp⟩
    · rename_i hx
      split at h
      · simp at h
      · rename_i m rest' hm
        simp only [Option.some.injEq, Prod.mk.injEq] at h
        obtain ⟨rfl, rfl⟩ := h
        obtain ⟨used, rfl, h2, h3, h4⟩ := ih hm
        refine ⟨x :: used, rfl, fun r => by simp [unleb, hx, h2 r], ?_, by simp⟩
        have := x.isLt
        rw [List.length_cons, Nat.pow_succ]
        omega

theorem varint_exact : varint.Exact := by
  refine ⟨varint_lawful, ?_⟩
  intro b n rest h
  obtain ⟨used, h1, h2, h3, h4⟩ := unleb_reads h
  refine ⟨used, h1, h2, ?_⟩
  obtain ⟨k, hk⟩ : ∃ k, used.length = k + 1 := ⟨used.length - 1, by omega⟩
  rw [hk] at h3 ⊢
  exact leb_mono h3

theorem prod_exact {α β : Type} {c : Codec α} {d : Codec β} (hc : c.Exact) (hd : d.Exact) : (prod c d).Exact := by
  refine ⟨prod_lawful hc.trip hd.trip, ?_⟩
  rintro b ⟨x, y⟩ rest h
  simp only [prod] at h
  split at h
  · simp at h
  · rename_i x' b' hx
    split at h
    · simp at h
    · rename_i y' b'' hy
      simp only [Option.some.injEq, Prod.mk.injEq] at h
      obtain ⟨⟨rfl, rfl⟩, rfl⟩ := h
      obtain ⟨u, rfl, u2, u3⟩ := hc.reads _ _ _ hx
      obtain ⟨v, rfl, v2, v3⟩ := hd.reads _ _ _ hy
      refine ⟨u ++ v, by simp, ?_, by simp [prod]; omega⟩
      intro r
      simp only [prod, List.append_assoc, u2, v2]

theorem decN_reads {α : Type} {c : Codec α} (hc : c.Exact) (n : Nat) {b : Bytes} {l : List α} {rest : Bytes}
    (h : decN c n b = some (l, rest)) : l.length = n ∧ ∃ used, b = used ++ rest ∧ (∀ r, decN c n (used ++ r) = some (l, r)) ∧
      ((l.map c.enc).flatten).length ≤ used.length := by
  induction n generalizing b l with
  | zero =>
    simp only [decN, Option.some.injEq, Prod.mk.injEq] at h
    obtain ⟨rfl, rfl⟩ := h
    exact ⟨rfl, [], rfl, fun r => rfl, by simp⟩
  | succ n ih =>
    simp only [decN] at h
    split at h
    · simp at h
    · rename_i x b' hx
      split at h
      · simp at h
      · rename_i l' b'' hl
        simp only [Option.some.injEq, Prod.mk.injEq] at h
        obtain ⟨rfl, rfl⟩ := h
        obtain ⟨u, rfl, u2, u3⟩ := hc.reads _ _ _ hx
        obtain ⟨hn, v, rfl, v2, v3⟩ := ih hl
        refine ⟨by simp [hn], u ++ v, by simp, ?_, by simp at v3 ⊢; omega⟩
        intro r
        simp only [decN, List.append_assoc, u2, v2]

theorem list_exact {α : Type} {c : Codec α} (hc : c.Exact) : (list c).Exact := by
  refine ⟨list_lawful hc.trip, ?_⟩
  intro b l rest h
  simp only [list] at h
  split at h
  · simp at h
  · rename_i n b' hn
    obtain ⟨u, rfl, u2, u3⟩ := varint_exact.reads _ _ _ hn
    obtain ⟨hl, v, rfl, v2, v3⟩ := decN_reads hc n h
    refine ⟨u ++ v, by simp, ?_, ?_⟩
    · intro r
      simp only [list, List.append_assoc, u2, v2]
    · simp only [list, List.length_append, hl]
      omega

theorem iso_exact {α β : Type} {c : Codec α} (hc : c.Exact) {f : α → β} {g : β → α} (hfg : ∀ b, f (g b) = b)
    (hgf : ∀ a, g (f a) = a) : (iso c f g).Exact := by
  refine ⟨iso_lawful hc.trip f g hfg, ?_⟩
  intro b x rest h
  simp only [iso] at h
  split at h
  · simp at h
  · rename_i a rest' ha
    simp only [Option.some.injEq, Prod.mk.injEq] at h
    obtain ⟨rfl, rfl⟩ := h
    obtain ⟨u, u1, u2, u3⟩ := hc.reads _ _ _ ha
    refine ⟨u, u1, fun r => by simp only [iso, u2], by simp only [iso, hgf]; exact u3⟩

theorem decMap_reads {α β : Type} {c : Codec α} (hc : c.Exact) {f : α → β} {b : Bytes} {x : β} {rest : Bytes}
    (h : decMap c f b = some (x, rest)) : ∃ a used, x = f a ∧ b = used ++ rest ∧ (∀ r, decMap c f (used ++ r) = some (x, r)) ∧
      (c.enc a).length ≤ used.length := by
  simp only [decMap] at h
  split at h
  · simp at h
  · rename_i a rest' ha
    simp only [Option.some.injEq, Prod.mk.injEq] at h
    obtain ⟨rfl, rfl⟩ := h
    obtain ⟨u, u1, u2, u3⟩ := hc.reads _ _ _ ha
    exact ⟨a, u, rfl, u1, fun r => by simp only [decMap, u2], u3⟩

theorem decMap_trip {α β : Type} {c : Codec α} (hc : c.Exact) (f : α → β) (a : α) (rest : Bytes) :
    decMap c f (c.enc a ++ rest) = some (f a, rest) := by
  simp only [decMap, hc.trip]

theorem option_exact {α : Type} {c : Codec α} (hc : c.Exact) : (option c).Exact := by
  constructor
  · intro a rest
    cases a with
    | none => simp [option]
    | some a =>
      have h10 : (1 : U8) ≠ 0 := by decide
      simp [option, h10, decMap_trip hc]
  · intro b x rest h
    cases b with
    | nil => simp [option] at h
    | cons y b =>
      simp only [option] at h
      split at h
      · rename_i hy
        simp only [Option.some.injEq, Prod.mk.injEq] at h
        obtain ⟨rfl, rfl⟩ := h
        exact ⟨[y], rfl, fun r => by simp [option, hy], by simp [option]⟩
      · rename_i hy
        split at h
        · rename_i hy1
          obtain ⟨a, u, rfl, rfl, u2, u3⟩ := decMap_reads hc h
          refine ⟨y :: u, rfl, fun r => ?_, by simp only [option, List.length_cons]; omega⟩
          simp only [option, List.cons_append, if_neg hy, if_pos hy1, u2]
        · simp at h

theorem enc_perm {α : Type} (c : Codec α) {l l' : List α} (h : l.Perm l') : ((list c).enc l).length = ((list c).enc l').length := by
  simp only [list, List.length_append, List.length_flatten, h.length_eq, List.map_map]
  rw [(h.map _).sum_nat]

theorem collectUnique_perm {K V : Type} [LinearOrder K] {l : List (K × V)} {m : BMap K V}
    (h : collectUnique BMap.empty l = some m) : l.Perm m.toList := by
  have hnd := (C32_accepts_iff_distinct l).1 (by rw [h]; rfl)
  refine (List.perm_ext_iff_of_nodup (List.Nodup.of_map _ hnd) (List.Nodup.of_map _ (BMap.toList_nodupKeys m))).2 ?_
  rintro ⟨k, v⟩
  rw [BMap.mem_toList, C32_exact l m h]

theorem map_exact {K V : Type} [LinearOrder K] {c : Codec K} {d : Codec V} (hc : c.Exact) (hd : d.Exact) : (map c d).Exact := by
  have hl := list_exact (prod_exact hc hd)
  constructor
  · intro m rest
    simp only [map, hl.trip, C32_round_trip]
  · intro b m rest h
    simp only [map] at h
    split at h
    · simp at h
    · rename_i l rest' hl'
      split at h
      · simp at h
      · rename_i m' hm
        simp only [Option.some.injEq, Prod.mk.injEq] at h
        obtain ⟨rfl, rfl⟩ := h
        obtain ⟨u, u1, u2, u3⟩ := hl.reads _ _ _ hl'
        refine ⟨u, u1, fun r => by simp only [map, u2, hm], ?_⟩
        simp only [map]
        rw [← enc_perm _ (collectUnique_perm hm)]
        exact u3

theorem bytes_exact : bytes.Exact := list_exact u8_exact

theorem byte_back (l : List UInt8) : (l.map UInt8.toFin).map UInt8.ofFin = l := by
  simp [List.map_map, Function.comp_def]

theorem byte_forth (l : Bytes) : (l.map UInt8.ofFin).map UInt8.toFin = l := by
  simp [List.map_map, Function.comp_def]

theorem utf8Encode_eq (t : Text) : (t.flatMap String.utf8EncodeChar).toByteArray = t.utf8Encode := rfl

theorem toByteArray_inj {l l' : List UInt8} (h : l.toByteArray = l'.toByteArray) : l = l' := by
  have := congrArg (fun b : ByteArray => b.data.toList) h
  simpa using this

theorem unUtf8_utf8 (t : Text) : unUtf8 (utf8 t) = some t := by
  unfold unUtf8 utf8
  rw [byte_back, utf8Encode_eq, List.utf8Decode?_utf8Encode]
  simp

theorem utf8_unUtf8 {b : Bytes} {t : Text} (h : unUtf8 b = some t) : utf8 t = b := by
  unfold unUtf8 at h
  obtain ⟨a, ha, rfl⟩ := Option.map_eq_some_iff.1 h
  obtain ⟨l, hl⟩ := ByteArray.isSome_utf8Decode?_iff.1 (by rw [ha]; rfl)
  rw [hl, List.utf8Decode?_utf8Encode] at ha
  simp only [Option.some.injEq] at ha
  subst ha
  unfold utf8
  rw [← utf8Encode_eq] at hl
  rw [List.toList_toArray, ← toByteArray_inj hl, byte_forth]

theorem text_exact : text.Exact := by
  constructor
  · intro t rest
    simp only [text, bytes_exact.trip, unUtf8_utf8]
  · intro b t rest h
    simp only [text] at h
    split at h
    · simp at h
    · rename_i x rest' hx
      split at h
      · simp at h
      · rename_i t' ht
        simp only [Option.some.injEq, Prod.mk.injEq] at h
        obtain ⟨rfl, rfl⟩ := h
        obtain ⟨u, u1, u2, u3⟩ := bytes_exact.reads _ _ _ hx
        refine ⟨u, u1, fun r => by simp only [text, u2, ht], ?_⟩
        simp only [text, utf8_unUtf8 ht]
        exact u3

theorem roundId_exact : roundId.Exact :=
  iso_exact (prod_exact u8_exact (prod_exact (list_exact u8_exact) bool_exact)) (fun _ => rfl) (fun _ => rfl)

theorem metadata_exact : metadata.Exact := iso_exact (prod_exact bytes_exact roundId_exact) (fun _ => rfl) (fun _ => rfl)

theorem signedHash_exact : signedHash.Exact :=
  iso_exact (prod_exact bytes_exact (prod_exact metadata_exact bytes_exact)) (fun _ => rfl) (fun _ => rfl)

theorem part_exact (k : PartKind) : (part k).Exact := iso_exact (option_exact bytes_exact) (fun _ => rfl) (fun _ => rfl)

theorem signedPart_exact (k : PartKind) : (signedPart k).Exact :=
  iso_exact (prod_exact bytes_exact (prod_exact metadata_exact (part_exact k))) (fun _ => rfl) (fun _ => rfl)

variable {sp : SP} {id : Codec sp.Id}

theorem message_exact (hid : id.Exact) : (message id).Exact :=
  iso_exact (prod_exact hid (prod_exact (signedPart_exact _) (prod_exact (signedPart_exact _) (signedPart_exact _))))
    (fun _ => rfl) (fun _ => rfl)

theorem protocolEvidence_exact (hid : id.Exact) : (protocolEvidence id).Exact := by
  have hs := fun k => signedPart_exact k
  have ho := fun k => option_exact (hs k)
  have hm := fun k => map_exact roundId_exact (hs k)
  exact iso_exact (prod_exact bytes_exact (prod_exact (ho _) (prod_exact (ho _) (prod_exact (ho _) (prod_exact (hm _)
    (prod_exact (hm _) (prod_exact (hm _) (prod_exact (map_exact roundId_exact (map_exact hid (hs _))) (hm _)))))))))
    (fun _ => rfl) (fun _ => rfl)

theorem evBody_exact (hid : id.Exact) : (evBody id).Exact := by
  have h0 := protocolEvidence_exact hid
  have hs := fun k => signedPart_exact k
  have h4 := prod_exact (hs .normal) hid
  have h5 := prod_exact hid (prod_exact (hs .echo) signedHash_exact)
  constructor
  · intro e rest
    cases e <;> simp only [evBody, List.append_assoc, varint_exact.trip, decMap_trip h0, decMap_trip (hs _), decMap_trip h4,
      decMap_trip h5]
  · intro b x rest h
    simp only [evBody] at h
    split at h
    · simp at h
    · rename_i n b' hn
      obtain ⟨u, rfl, u2, u3⟩ := varint_exact.reads _ _ _ hn
      split at h
      · obtain ⟨a, v, rfl, rfl, v2, v3⟩ := decMap_reads h0 h
        exact ⟨u ++ v, by simp, fun r => by simp only [evBody, List.append_assoc, u2, v2], by simp [evBody]; omega⟩
      · obtain ⟨a, v, rfl, rfl, v2, v3⟩ := decMap_reads (hs _) h
        exact ⟨u ++ v, by simp, fun r => by simp only [evBody, List.append_assoc, u2, v2], by simp [evBody]; omega⟩
      · obtain ⟨a, v, rfl, rfl, v2, v3⟩ := decMap_reads (hs _) h
        exact ⟨u ++ v, by simp, fun r => by simp only [evBody, List.append_assoc, u2, v2], by simp [evBody]; omega⟩
      · obtain ⟨a, v, rfl, rfl, v2, v3⟩ := decMap_reads (hs _) h
        exact ⟨u ++ v, by simp, fun r => by simp only [evBody, List.append_assoc, u2, v2], by simp [evBody]; omega⟩
      · obtain ⟨a, v, rfl, rfl, v2, v3⟩ := decMap_reads h4 h
        exact ⟨u ++ v, by simp, fun r => by simp only [evBody, List.append_assoc, u2, v2], by simp [evBody]; omega⟩
      · obtain ⟨a, v, rfl, rfl, v2, v3⟩ := decMap_reads h5 h
        exact ⟨u ++ v, by simp, fun r => by simp only [evBody, List.append_assoc, u2, v2], by simp [evBody]; omega⟩
      · simp at h

theorem evidence_exact (hid : id.Exact) : (evidence id).Exact :=
  iso_exact (prod_exact hid (prod_exact text_exact (evBody_exact hid))) (fun _ => rfl) (fun _ => rfl)

end Manul.Codec
