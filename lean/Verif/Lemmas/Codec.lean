import Verif.Model.Codec
import Verif.Model.Toy

/-! # Round trip laws of the wire format -/

namespace Manul.Codec

theorem u8_lawful : u8.Lawful := fun _ _ => rfl

theorem bool_lawful : bool.Lawful := by
  intro a rest
  cases a <;> simp [bool]

theorem unleb_leb (fuel n : Nat) (h : n ≤ fuel) (rest : Bytes) : unleb (leb fuel n ++ rest) = some (n, rest) := by
  induction fuel generalizing n with
  | zero =>
    obtain rfl : n = 0 := by omega
    simp [leb, unleb]
  | succ fuel ih =>
    unfold leb
    split
    · rename_i hn
      simp [unleb, hn]
    · rename_i hn
      have hd : n / 128 ≤ fuel := by omega
      have : ¬ (n % 128 + 128 < 128) := by omega
      simp only [List.cons_append, unleb, this, if_false, ih _ hd]
      congr 2
      omega

theorem varint_lawful : varint.Lawful := fun n rest => unleb_leb n n (le_refl n) rest

theorem prod_lawful {α β : Type} {c : Codec α} {d : Codec β} (hc : c.Lawful) (hd : d.Lawful) : (prod c d).Lawful := by
  rintro ⟨a, b⟩ rest
  simp [prod, List.append_assoc, hc a, hd b]

theorem decN_lawful {α : Type} {c : Codec α} (hc : c.Lawful) (l : List α) (rest : Bytes) :
    decN c l.length ((l.map c.enc).flatten ++ rest) = some (l, rest) := by
  induction l with
  | nil => rfl
  | cons x l ih => simp [decN, List.append_assoc, hc x, ih]

theorem list_lawful {α : Type} {c : Codec α} (hc : c.Lawful) : (list c).Lawful := by
  intro l rest
  simp only [list, List.append_assoc, varint_lawful l.length]
  exact decN_lawful hc l rest

theorem iso_lawful {α β : Type} {c : Codec α} (hc : c.Lawful) (f : α → β) (g : β → α) (h : ∀ b, f (g b) = b) :
    (iso c f g).Lawful := by
  intro b rest
  simp [iso, hc (g b), h]

theorem bytes_lawful : bytes.Lawful := list_lawful u8_lawful

theorem roundId_lawful : roundId.Lawful :=
  iso_lawful (prod_lawful u8_lawful (prod_lawful (list_lawful u8_lawful) bool_lawful)) _ _ (fun _ => rfl)

theorem metadata_lawful : metadata.Lawful :=
  iso_lawful (prod_lawful bytes_lawful roundId_lawful) _ _ (fun _ => rfl)

theorem signedHash_lawful : signedHash.Lawful :=
  iso_lawful (prod_lawful bytes_lawful (prod_lawful metadata_lawful bytes_lawful)) _ _ (fun _ => rfl)

/-- A lawful encoding is prefix-free in the strong sense: it can be cut off the front of a longer string. -/
theorem Lawful.cancel {α : Type} {c : Codec α} (h : c.Lawful) {a b : α} {r s : Bytes}
    (e : c.enc a ++ r = c.enc b ++ s) : a = b ∧ r = s := by
  have h1 := h a r
  rw [e, h b s] at h1
  simpa [eq_comm] using h1

end Manul.Codec
