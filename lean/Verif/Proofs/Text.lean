import Verif.Model.Text

namespace Frm

theorem char_ext {a b : Char} (h : a.toNat = b.toNat) : a = b := by
  apply Char.ext
  exact UInt32.toNat_inj.mp h

theorem toNat_toLower (c : Char) :
    c.toLower.toNat = if 65 ≤ c.toNat ∧ c.toNat ≤ 90 then c.toNat + 32 else c.toNat := by
  unfold Char.toLower
  by_cases h : c.val ≥ 'A'.val ∧ c.val ≤ 'Z'.val
  · rw [dif_pos h]
    have h1 : 65 ≤ c.toNat := h.1
    have h2 : c.toNat ≤ 90 := h.2
    rw [if_pos ⟨h1, h2⟩]
    show (c.val + ('a'.val - 'A'.val)).toNat = _
    rw [UInt32.toNat_add]
    have : ('a'.val - 'A'.val).toNat = 32 := by decide
    rw [this]
    show (c.toNat + 32) % 2 ^ 32 = _
    omega
  · rw [dif_neg h, if_neg]
    rintro ⟨h1, h2⟩
    exact h ⟨h1, h2⟩

theorem toNat_toUpper (c : Char) :
    c.toUpper.toNat = if 97 ≤ c.toNat ∧ c.toNat ≤ 122 then c.toNat - 32 else c.toNat := by
  unfold Char.toUpper
  by_cases h : 'a'.val ≤ c.val ∧ c.val ≤ 'z'.val
  · rw [dif_pos h]
    have h1 : 97 ≤ c.toNat := h.1
    have h2 : c.toNat ≤ 122 := h.2
    rw [if_pos ⟨h1, h2⟩]
    show (c.val + ('A'.val - 'a'.val)).toNat = _
    rw [UInt32.toNat_add]
    have : ('A'.val - 'a'.val).toNat = 4294967264 := by decide
    rw [this]
    show (c.toNat + 4294967264) % 2 ^ 32 = _
    omega
  · rw [dif_neg h, if_neg]
    rintro ⟨h1, h2⟩
    exact h ⟨h1, h2⟩

theorem toLower_toUpper (c : Char) : c.toUpper.toLower = c.toLower := by
  apply char_ext
  rw [toNat_toLower, toNat_toLower, toNat_toUpper]
  repeat (first | omega | split)

theorem toLower_toLower (c : Char) : c.toLower.toLower = c.toLower := by
  apply char_ext
  rw [toNat_toLower, toNat_toLower]
  repeat (first | omega | split)

theorem toUpper_toLower (c : Char) : c.toLower.toUpper = c.toUpper := by
  apply char_ext
  rw [toNat_toUpper, toNat_toUpper, toNat_toLower]
  repeat (first | omega | split)

theorem toUpper_toUpper (c : Char) : c.toUpper.toUpper = c.toUpper := by
  apply char_ext
  rw [toNat_toUpper, toNat_toUpper]
  repeat (first | omega | split)

theorem toLower_of_not_upper {c : Char} (h : ¬ (65 ≤ c.toNat ∧ c.toNat ≤ 90)) : c.toLower = c := by
  apply char_ext; rw [toNat_toLower, if_neg h]

theorem lower_upper (s : Str) : lower (upper s) = lower s := by
  simp [lower, upper, Function.comp_def, toLower_toUpper]

theorem lower_lower (s : Str) : lower (lower s) = lower s := by
  simp [lower, Function.comp_def, toLower_toLower]

theorem upper_lower (s : Str) : upper (lower s) = upper s := by
  simp [lower, upper, Function.comp_def, toUpper_toLower]

theorem upper_upper (s : Str) : upper (upper s) = upper s := by
  simp [upper, Function.comp_def, toUpper_toUpper]

theorem lower_append (a b : Str) : lower (a ++ b) = lower a ++ lower b := by simp [lower]

end Frm
